import Verif.Util.Loops
import Verif.Util.Deriv

/-!
# C38, C39: the van der Waals mixing rule

`thermo/eos_mix_methods.py`: `a_alpha_aijs_composition_independent` (169-197), `a_alpha_and_derivatives` (204-221),
`a_alpha_and_derivatives_full` (348-427), `a_alpha_quadratic_terms` (490-520),
`a_alpha_and_derivatives_quadratic_terms` (661-739); `thermo/eos_mix.py`: `_a_alpha_j_rows` (2456-2470).

Arrays are functions of the index; only indices below `N` are meaningful. Loops that write arrays are loops on a state; loops
that only add to one number are sums (`acc`). A square root of a negative number (an exception in the code) is outside of the theorems:
they assume `a_i ≥ 0`.
-/

namespace Verif.MixRule

open Finset Filter Topology

/-! ### The code -/

/-- Matrices and roots of `a_alpha_aijs_composition_independent`. -/
structure Mats where
  /-- `a_alpha_ijs` -/
  ijs : ℕ → ℕ → ℝ
  /-- `a_alpha_ij_roots_inv` -/
  inv : ℕ → ℕ → ℝ

/-- `m[i][j] = v`. -/
def put (m : ℕ → ℕ → ℝ) (i j : ℕ) (v : ℝ) : ℕ → ℕ → ℝ := fun p q => if p = i ∧ q = j then v else m p q

open Classical in
/-- `a_alpha_aijs_composition_independent` (177-197): the loop over `j in range(i, N)`. A failed division writes one of the two
entries of the inverse only. -/
noncomputable def aijs (N : ℕ) (a : ℕ → ℝ) (omk : ℕ → ℕ → ℝ) : Mats :=
  loop N (fun i s => loop (N - i) (fun t s =>
    let j := i + t
    let term := √(a i) * √(a j)
    { ijs := put (put s.ijs j i (omk i j * term)) i j (omk i j * term)
      inv := if term = 0 then put s.inv i j 1e100 else put (put s.inv j i (1 / term)) i j (1 / term) }) s)
    ⟨fun _ _ => 0, fun _ _ => 0⟩

open Classical in
/-- `a_alpha_and_derivatives` (210-221), the value. -/
noncomputable def aAlpha (N : ℕ) (ijs : ℕ → ℕ → ℝ) (z : ℕ → ℝ) : ℝ :=
  acc N fun i => if 0 < z i then
    (acc (N - (i + 1)) fun t => ijs i (i + 1 + t) * z i * z (i + 1 + t) + ijs i (i + 1 + t) * z i * z (i + 1 + t))
      + ijs i i * z i * z i else 0

/-- `a_alpha_and_derivatives_full`: the value (361-368). -/
noncomputable def fullA (N : ℕ) (ijs : ℕ → ℕ → ℝ) (z : ℕ → ℝ) : ℝ :=
  acc N fun i => (acc i fun j => ijs i j * (z i * z j) + ijs i j * (z i * z j)) + ijs i i * (z i * z i)

/-- `da_alpha_dT_ij` (397-404). -/
noncomputable def dij (a a1 : ℕ → ℝ) (omk inv : ℕ → ℕ → ℝ) (i j : ℕ) : ℝ :=
  let x1 := a i * a1 j
  let x2 := a j * a1 i
  let x1_x2 := x1 + x2
  let kij_m1 := -omk i j
  (-0.5) * kij_m1 * x1_x2 * inv i j

/-- `d2a_alpha_dT2_ij` (411-415). -/
noncomputable def d2ij (a a1 a2 : ℕ → ℝ) (omk inv : ℕ → ℕ → ℝ) (i j : ℕ) : ℝ :=
  let x1_x2 := a i * a1 j + a j * a1 i
  let kij_m1 := -omk i j
  let x0 := a i * a j
  kij_m1 * ((x0 * ((-0.5) * (a i * a2 j + a j * a2 i) - a1 i * a1 j) + 0.25 * x1_x2 * x1_x2) / (inv i j * x0 * x0))

open Classical in
/-- `a_alpha_and_derivatives_full`: accumulation of a pair quantity (386-425). -/
noncomputable def fullSum (N : ℕ) (d : ℕ → ℕ → ℝ) (z : ℕ → ℝ) : ℝ :=
  acc N fun i => if 0 < z i then
    acc N fun j => if j < i then 0 else if i ≠ j then d i j * (z i * z j) + d i j * (z i * z j) else d i j * (z i * z j)
  else 0

open Classical in
/-- `a_alpha_and_derivatives_full`: the matrix of a pair quantity (370-372, 386-416). -/
noncomputable def fullMat (N : ℕ) (d : ℕ → ℕ → ℝ) (z : ℕ → ℝ) : ℕ → ℕ → ℝ :=
  loop N (fun i s => if 0 < z i then loop N (fun j s => if j < i then s else put (put s j i (d i j)) i j (d i j)) s else s)
    fun _ _ => 0

/-- `a_alpha_quadratic_terms` (494-520). -/
noncomputable def quadTerms (N : ℕ) (a r z : ℕ → ℝ) (omk : ℕ → ℕ → ℝ) : ℝ × (ℕ → ℝ) :=
  let vec0 := fun i => r i * z i
  let rows0 := loop N (fun i s => loop i (fun j s => addAt i (omk i j * vec0 j) (addAt j (omk i j * vec0 i) s)) s) fun _ => 0
  let rows := fun i => rows0 i * r i + omk i i * a i * z i
  (acc N fun i => rows i * z i, rows)

/-- State of `a_alpha_and_derivatives_quadratic_terms`. -/
structure QS where
  /-- `a_alpha` -/
  a : ℝ
  /-- `da_alpha_dT` -/
  da : ℝ
  /-- `d2a_alpha_dT2` -/
  d2a : ℝ
  /-- `a_alpha_j_rows` -/
  rows : ℕ → ℝ
  /-- `da_alpha_dT_j_rows` -/
  drows : ℕ → ℝ
  /-- `workingd1` -/
  w1 : ℝ
  /-- `workings2` -/
  w2 : ℝ

open Classical in
/-- The inner loop (682-722). -/
noncomputable def quadInner (a r a1 a2 z : ℕ → ℝ) (omk : ℕ → ℕ → ℝ) (i j : ℕ) (s : QS) : QS :=
  let v0 := r i * r j
  let aij := omk i j * v0
  let s1 := { s with rows := addAt i (z j * aij) (addAt j (aij * z i) s.rows), a := s.a + (aij * z i * z j + aij * z i * z j) }
  if a j = 0 then s1 else
  let x1_x2 := a i * a1 j + a j * a1 i
  let v0_inv := 1 / v0
  let v1 := (-omk i j) * v0_inv
  let d := x1_x2 * v1
  let x0 := a i * a j
  let d2 := v0_inv * v0_inv * v1 * (x0 * ((-0.5) * (a i * a2 j + a j * a2 i) - a1 i * a1 j) + 0.25 * x1_x2 * x1_x2)
  { s1 with drows := addAt i (z j * d) (addAt j (z i * d) s1.drows), w1 := s1.w1 + d * (z i * z j), w2 := s1.w2 + d2 * (z i * z j) }

open Classical in
/-- The outer loop (670-735). -/
noncomputable def quadOuter (a r a1 a2 z : ℕ → ℝ) (omk : ℕ → ℕ → ℝ) (i : ℕ) (s : QS) : QS :=
  let s := { s with w1 := 0, w2 := 0 }
  if a i = 0 ∨ z i = 0 then s else
  let s := loop i (quadInner a r a1 a2 z omk i) s
  let d := -a1 i - a1 i
  { s with
    rows := addAt i (a i * z i) s.rows
    a := s.a + a i * z i * z i
    drows := addAt i (z i * d) s.drows
    da := s.da - 0.5 * (d * (z i * z i) + (s.w1 + s.w1))
    d2a := s.d2a + (a2 i * (z i * z i) + (s.w2 + s.w2)) }

/-- `a_alpha_and_derivatives_quadratic_terms` (661-739). -/
noncomputable def quadDeriv (N : ℕ) (a r a1 a2 z : ℕ → ℝ) (omk : ℕ → ℕ → ℝ) : QS :=
  let s := loop N (quadOuter a r a1 a2 z omk) ⟨0, 0, 0, fun _ => 0, fun _ => 0, 0, 0⟩
  { s with drows := fun i => s.drows i * (-0.5) }

/-- `_a_alpha_j_rows` (2463-2468) from the matrix. -/
noncomputable def rowsOf (N : ℕ) (ijs : ℕ → ℕ → ℝ) (z : ℕ → ℝ) : ℕ → ℝ :=
  loop N (fun i s => addAt i (z i * ijs i i)
    (loop i (fun j s => addAt i (z j * ijs i j) (addAt j (z i * ijs i j) s)) s)) fun _ => 0

/-! ### Specification -/

/-- The attraction of a pair: `(1 - k_ij) √(a_i a_j)`. -/
noncomputable def pair (a : ℕ → ℝ) (omk : ℕ → ℕ → ℝ) (i j : ℕ) : ℝ := omk i j * √(a i * a j)

/-- The mixture attraction. -/
noncomputable def mix (N : ℕ) (a : ℕ → ℝ) (omk : ℕ → ℕ → ℝ) (z : ℕ → ℝ) : ℝ :=
  ∑ i ∈ range N, ∑ j ∈ range N, z i * z j * pair a omk i j

/-- Symmetric interaction parameters. -/
def Sym (omk : ℕ → ℕ → ℝ) : Prop := ∀ i j, omk i j = omk j i

theorem pair_symm {a : ℕ → ℝ} {omk : ℕ → ℕ → ℝ} (h : Sym omk) (i j : ℕ) : pair a omk i j = pair a omk j i := by
  unfold pair; rw [h i j, mul_comm (a i)]

theorem pair_root {a : ℕ → ℝ} (ha : ∀ i, 0 ≤ a i) (omk : ℕ → ℕ → ℝ) (i j : ℕ) :
    omk i j * (√(a i) * √(a j)) = pair a omk i j := by unfold pair; rw [Real.sqrt_mul (ha i)]

/-! ### C38 -/

variable {N : ℕ} {a r a1 a2 z : ℕ → ℝ} {omk : ℕ → ℕ → ℝ}

theorem aijs_cell (p q : ℕ) (hpq : p ≤ q) (hq : q < N) :
    (aijs N a omk).ijs p q = omk p q * (√(a p) * √(a q)) ∧ (aijs N a omk).ijs q p = omk p q * (√(a p) * √(a q))
    ∧ (aijs N a omk).inv p q = if √(a p) * √(a q) = 0 then 1e100 else 1 / (√(a p) * √(a q)) := by
  classical
  have key : ∀ {A : Type} (π : Mats → A) (v : A),
      (∀ i t (s : Mats), π { ijs := (put (put s.ijs (i + t) i (omk i (i + t) * (√(a i) * √(a (i + t))))) i (i + t)
              (omk i (i + t) * (√(a i) * √(a (i + t)))))
                             inv := if √(a i) * √(a (i + t)) = 0 then put s.inv i (i + t) 1e100 else (put (put s.inv (i + t) i (1 / (√(a i) * √(a (i + t)))))
                               i (i + t) (1 / (√(a i) * √(a (i + t))))) }
        = if i = p ∧ i + t = q then v else π s) → π (aijs N a omk) = v := by
    intro A π v h
    have hin : ∀ i < N, ∀ s, π (loop (N - i) (fun t s =>
        let j := i + t
        let term := √(a i) * √(a j)
        { ijs := put (put s.ijs j i (omk i j * term)) i j (omk i j * term)
          inv := if term = 0 then put s.inv i j 1e100 else put (put s.inv j i (1 / term)) i j (1 / term) : Mats }) s)
        = if i = p then v else π s := by
      intro i hi s
      by_cases hip : i = p
      · rw [if_pos hip, loop_set π (N - i) _ s (q - i) v]
        · rw [if_pos (by omega)]
        · intro t _ s
          dsimp only
          rw [h i t s]
          by_cases ht : t = q - i
          · rw [if_pos ⟨hip, by omega⟩, if_pos ht]
          · rw [if_neg (fun h' => ht (by omega)), if_neg ht]
      · rw [if_neg hip]
        have := loop_set π (N - i) (fun t s =>
          let j := i + t
          let term := √(a i) * √(a j)
          { ijs := put (put s.ijs j i (omk i j * term)) i j (omk i j * term)
            inv := if term = 0 then put s.inv i j 1e100 else put (put s.inv j i (1 / term)) i j (1 / term) : Mats }) s N v
          (by
            intro t ht s
            dsimp only
            rw [h i t s, if_neg (fun h' => hip h'.1), if_neg (by omega)])
        rw [this, if_neg (by omega)]
    unfold aijs
    rw [loop_set π N _ _ p v hin, if_pos (by omega)]
  refine ⟨key (fun s => s.ijs p q) _ ?_, key (fun s => s.ijs q p) _ ?_, key (fun s => s.inv p q) _ ?_⟩
  · intro i t s
    simp only [put]
    by_cases h : i = p ∧ i + t = q
    · obtain ⟨rfl, rfl⟩ := h; simp
    · rw [if_neg h, if_neg (fun h' => h ⟨h'.1.symm, h'.2.symm⟩), if_neg]
      rintro ⟨h1, h2⟩; exact h (by omega)
  · intro i t s
    simp only [put]
    by_cases h : i = p ∧ i + t = q
    · obtain ⟨rfl, rfl⟩ := h; simp
    · rw [if_neg h, if_neg, if_neg (fun h' => h ⟨h'.2.symm, h'.1.symm⟩)]
      rintro ⟨h1, h2⟩; exact h (by omega)
  · intro i t s
    by_cases h : i = p ∧ i + t = q
    · obtain ⟨rfl, rfl⟩ := h
      rw [if_pos (⟨rfl, rfl⟩ : i = i ∧ i + t = i + t)]
      split_ifs <;> simp [put]
    · rw [if_neg h]
      split_ifs
      · simp only [put]; rw [if_neg (fun h' => h ⟨h'.1.symm, h'.2.symm⟩)]
      · simp only [put]
        rw [if_neg (fun h' => h ⟨h'.1.symm, h'.2.symm⟩), if_neg]
        rintro ⟨h1, h2⟩; exact h (by omega)

/-- **C38.** The pair matrix is symmetric and holds the attraction of every pair. -/
theorem C38_pairs (ha : ∀ i, 0 ≤ a i) (hs : Sym omk) {i j : ℕ} (hi : i < N) (hj : j < N) :
    (aijs N a omk).ijs i j = pair a omk i j := by
  rcases le_total i j with h | h
  · rw [(aijs_cell i j h hj).1, pair_root ha]
  · rw [(aijs_cell j i h hi).2.1, pair_root ha, pair_symm hs]

theorem aijs_inv (ha : ∀ i, 0 < a i) {i j : ℕ} (hij : i ≤ j) (hj : j < N) : (aijs N a omk).inv i j = 1 / √(a i * a j) := by
  have h1 : 0 < √(a i) := Real.sqrt_pos.2 (ha i)
  have h2 : 0 < √(a j) := Real.sqrt_pos.2 (ha j)
  rw [(aijs_cell i j hij hj).2.2, if_neg (by positivity), Real.sqrt_mul (ha i).le]

theorem mix_comm_term (hs : Sym omk) (i j : ℕ) : z i * z j * pair a omk i j = z j * z i * pair a omk j i := by
  rw [pair_symm hs]; ring

/-- **C38.** `a_alpha_and_derivatives` is the double sum, for compositions without negative entries. -/
theorem C38_value (ha : ∀ i, 0 ≤ a i) (hs : Sym omk) (hz : ∀ i, 0 ≤ z i) :
    aAlpha N (aijs N a omk).ijs z = mix N a omk z := by
  unfold aAlpha mix
  rw [acc_eq, ← sum_upper N _ (fun i _ j _ => mix_comm_term hs i j)]
  refine sum_congr rfl fun i hi => ?_
  have hi' := mem_range.1 hi
  rw [acc_eq, sum_Ico_eq_sum_range]
  by_cases h : 0 < z i
  · rw [if_pos h, C38_pairs ha hs hi' hi']
    congr 1
    · refine sum_congr rfl fun t ht => ?_
      have := mem_range.1 ht
      rw [C38_pairs ha hs hi' (by omega)]
      ring
    · ring
  · rw [if_neg h]
    have h0 : z i = 0 := le_antisymm (not_lt.1 h) (hz i)
    simp [h0]

/-- **C38.** `a_alpha_and_derivatives_full` returns the double sum. -/
theorem C38_full_value (ha : ∀ i, 0 ≤ a i) (hs : Sym omk) : fullA N (aijs N a omk).ijs z = mix N a omk z := by
  unfold fullA mix
  rw [acc_eq, ← sum_lower N _ (fun i _ j _ => mix_comm_term hs i j)]
  refine sum_congr rfl fun i hi => ?_
  have hi' := mem_range.1 hi
  rw [acc_eq, C38_pairs ha hs hi' hi']
  congr 1
  · refine sum_congr rfl fun j hj => ?_
    have := mem_range.1 hj
    rw [C38_pairs ha hs hi' (by omega)]
    ring
  · ring

theorem quad_rows0 (k : ℕ) (hk : k < N) (vec : ℕ → ℝ) (hs : Sym omk) :
    loop N (fun i s => loop i (fun j s => addAt i (omk i j * vec j) (addAt j (omk i j * vec i) s)) s) (fun _ => (0 : ℝ)) k
      = ∑ i ∈ Ico (k + 1) N, omk k i * vec i + ∑ j ∈ range k, omk k j * vec j := by
  rw [loop_add (fun s : ℕ → ℝ => s k) N _ _ (fun i => ∑ j ∈ range i, ((if k = j then omk i j * vec i else 0)
    + if k = i then omk i j * vec j else 0)), zero_add]
  · have := sum_row N k hk (fun i j => omk j i * vec i)
    simp only at this
    rw [← this]
    refine sum_congr rfl fun i _ => sum_congr rfl fun j _ => ?_
    by_cases h1 : k = j
    · subst h1
      by_cases h : k = i
      · subst h; simp
      · simp [h, hs i k]
    · by_cases h : k = i
      · subst h; simp [h1]
      · simp [h, h1]
  · intro i _ s
    refine loop_add (fun s : ℕ → ℝ => s k) i _ s _ fun j _ s => ?_
    simp only [addAt_apply]
    ring

/-- **C38, C39.** `a_alpha_quadratic_terms`: the double sum, and complete row sums for every component and every
composition (zero or negative entries included). -/
theorem C39_quadratic_rows (ha : ∀ i, 0 ≤ a i) (hr : ∀ i, r i = √(a i)) (hs : Sym omk) {k : ℕ} (hk : k < N) :
    (quadTerms N a r z omk).2 k = ∑ j ∈ range N, z j * pair a omk k j := by
  unfold quadTerms
  dsimp only
  rw [quad_rows0 k hk (fun i => r i * z i) hs, sum_split_at N k hk, add_mul, sum_mul, sum_mul]
  have e : ∀ j, omk k j * (r j * z j) * r k = z j * pair a omk k j := by
    intro j; rw [← pair_root ha, hr, hr]; ring
  simp only [e]
  congr 1
  rw [pair, Real.sqrt_mul_self (ha k)]
  ring

/-- **C38.** -/
theorem C38_quadratic (ha : ∀ i, 0 ≤ a i) (hr : ∀ i, r i = √(a i)) (hs : Sym omk) :
    (quadTerms N a r z omk).1 = mix N a omk z := by
  have h : ∀ k < N, (quadTerms N a r z omk).2 k = ∑ j ∈ range N, z j * pair a omk k j := fun k hk =>
    C39_quadratic_rows ha hr hs hk
  have e : (quadTerms N a r z omk).1 = ∑ i ∈ range N, (quadTerms N a r z omk).2 i * z i := by
    rw [← acc_eq]; rfl
  rw [e]
  unfold mix
  refine sum_congr rfl fun i hi => ?_
  rw [h i (mem_range.1 hi), sum_mul]
  exact sum_congr rfl fun j _ => by ring

/-- First temperature derivative of a pair. -/
noncomputable def dpair (a a1 : ℕ → ℝ) (omk : ℕ → ℕ → ℝ) (i j : ℕ) : ℝ :=
  omk i j * ((a i * a1 j + a j * a1 i) / (2 * √(a i * a j)))
/-- Second temperature derivative of a pair. -/
noncomputable def d2pair (a a1 a2 : ℕ → ℝ) (omk : ℕ → ℕ → ℝ) (i j : ℕ) : ℝ :=
  omk i j * ((a i * a2 j + a j * a2 i + 2 * a1 i * a1 j) / (2 * √(a i * a j))
    - (a i * a1 j + a j * a1 i) ^ 2 / (4 * (a i * a j) * √(a i * a j)))

/-- The derivatives of a pair are what their names say: for attraction functions of temperature. -/
theorem pair_deriv {A A1 A2 : ℕ → ℝ → ℝ} {T : ℝ} (hA : ∀ i, 0 < A i T)
    (h1 : ∀ i, ∀ᶠ t in 𝓝 T, HasDerivAt (A i) (A1 i t) t) (h2 : ∀ i, HasDerivAt (A1 i) (A2 i T) T) (i j : ℕ) :
    (∀ᶠ t in 𝓝 T, HasDerivAt (fun t => pair (fun i => A i t) omk i j) (dpair (fun i => A i t) (fun i => A1 i t) omk i j) t)
    ∧ HasDerivAt (fun t => dpair (fun i => A i t) (fun i => A1 i t) omk i j)
      (d2pair (fun i => A i T) (fun i => A1 i T) (fun i => A2 i T) omk i j) T := by
  have hpos : ∀ i, ∀ᶠ t in 𝓝 T, 0 < A i t := fun i =>
    (h1 i).self_of_nhds.continuousAt.eventually (lt_mem_nhds (hA i))
  have hd : ∀ t, 0 < A i t → 0 < A j t → HasDerivAt (A i) (A1 i t) t → HasDerivAt (A j) (A1 j t) t →
      HasDerivAt (fun t => √(A i t * A j t)) ((A i t * A1 j t + A j t * A1 i t) / (2 * √(A i t * A j t))) t := by
    intro t p1 p2 e1 e2
    refine ((e1.fun_mul e2).sqrt (mul_pos p1 p2).ne').congr_deriv ?_
    ring
  constructor
  · filter_upwards [h1 i, h1 j, hpos i, hpos j] with t e1 e2 p1 p2
    exact (hd t p1 p2 e1 e2).const_mul _
  · unfold dpair d2pair
    have p1 := hA i; have p2 := hA j
    have e1 := (h1 i).self_of_nhds; have e2 := (h1 j).self_of_nhds
    have hp : 0 < A i T * A j T := mul_pos p1 p2
    have hq : 0 < √(A i T * A j T) := Real.sqrt_pos.2 hp
    have hn := (e1.fun_mul (h2 j)).fun_add (e2.fun_mul (h2 i))
    have hden := (hd T p1 p2 e1 e2).const_mul 2
    refine HasDerivAt.congr_deriv ((hn.fun_div hden (by positivity)).const_mul _) ?_
    have hsq : √(A i T * A j T) ^ 2 = A i T * A j T := Real.sq_sqrt hp.le
    have hsq' : A i T * A j T = √(A i T * A j T) ^ 2 := hsq.symm
    rw [show (4 : ℝ) * (A i T * A j T) * √(A i T * A j T) = 4 * √(A i T * A j T) ^ 3 by rw [pow_succ, hsq]; ring]
    congr 1
    generalize √(A i T * A j T) = q at *
    field_simp
    ring

theorem dpair_symm (hs : Sym omk) (i j : ℕ) : dpair a a1 omk i j = dpair a a1 omk j i := by
  unfold dpair; rw [hs i j, mul_comm (a i) (a j), add_comm (a i * a1 j)]
theorem d2pair_symm (hs : Sym omk) (i j : ℕ) : d2pair a a1 a2 omk i j = d2pair a a1 a2 omk j i := by
  unfold d2pair; rw [hs i j, mul_comm (a i) (a j), add_comm (a i * a1 j), add_comm (a i * a2 j)]; ring_nf

theorem dij_eq (ha : ∀ i, 0 < a i) {i j : ℕ} (hij : i ≤ j) (hj : j < N) :
    dij a a1 omk (aijs N a omk).inv i j = dpair a a1 omk i j := by
  unfold dij dpair
  dsimp only
  rw [aijs_inv ha hij hj]
  ring

theorem d2ij_eq (ha : ∀ i, 0 < a i) {i j : ℕ} (hij : i ≤ j) (hj : j < N) :
    d2ij a a1 a2 omk (aijs N a omk).inv i j = d2pair a a1 a2 omk i j := by
  unfold d2ij d2pair
  dsimp only
  rw [aijs_inv ha hij hj]
  have hp : 0 < a i * a j := mul_pos (ha i) (ha j)
  have hsq : √(a i * a j) ^ 2 = a i * a j := Real.sq_sqrt hp.le
  have hq : 0 < √(a i * a j) := Real.sqrt_pos.2 hp
  generalize a i * a1 j + a j * a1 i = x
  have e : a i * a2 j + a j * a2 i + 2 * a1 i * a1 j = (a i * a2 j + a j * a2 i) + 2 * (a1 i * a1 j) := by ring
  rw [e]
  generalize a i * a2 j + a j * a2 i = y
  generalize a1 i * a1 j = w
  generalize √(a i * a j) = q at *
  generalize a i * a j = p at *
  subst hsq
  field_simp
  ring

theorem full_sum {D d : ℕ → ℕ → ℝ} (hz : ∀ i, 0 ≤ z i) (hs : ∀ i j, D i j = D j i)
    (h : ∀ i j, i ≤ j → j < N → d i j = D i j) :
    fullSum N d z = ∑ i ∈ range N, ∑ j ∈ range N, z i * z j * D i j := by
  unfold fullSum
  rw [acc_eq, ← sum_upper N _ (fun i _ j _ => by rw [hs i j]; ring)]
  refine sum_congr rfl fun i hi => ?_
  have hi' := mem_range.1 hi
  by_cases h0 : 0 < z i
  · rw [if_pos h0, acc_eq, sum_split_at N i hi']
    have e1 : ∑ j ∈ range i, (if j < i then (0 : ℝ) else if i ≠ j then d i j * (z i * z j) + d i j * (z i * z j)
        else d i j * (z i * z j)) = 0 := sum_eq_zero fun j hj => if_pos (mem_range.1 hj)
    rw [e1, add_zero, if_neg (lt_irrefl i), if_neg (fun h => h rfl), h i i le_rfl hi']
    congr 1
    · refine sum_congr rfl fun j hj => ?_
      obtain ⟨h2, h3⟩ := mem_Ico.1 hj
      rw [if_neg (by omega), if_pos (by omega), h i j (by omega) h3]
      ring
    · ring
  · rw [if_neg h0]
    have : z i = 0 := le_antisymm (not_lt.1 h0) (hz i)
    simp [this]

/-- **C38.** The temperature derivatives of `a_alpha_and_derivatives_full` are the double sums of pair derivatives. -/
theorem C38_full_derivatives (ha : ∀ i, 0 < a i) (hs : Sym omk) (hz : ∀ i, 0 ≤ z i) :
    fullSum N (dij a a1 omk (aijs N a omk).inv) z = ∑ i ∈ range N, ∑ j ∈ range N, z i * z j * dpair a a1 omk i j
    ∧ fullSum N (d2ij a a1 a2 omk (aijs N a omk).inv) z
      = ∑ i ∈ range N, ∑ j ∈ range N, z i * z j * d2pair a a1 a2 omk i j :=
  ⟨full_sum hz (dpair_symm hs) fun _ _ h1 h2 => dij_eq ha h1 h2,
   full_sum hz (d2pair_symm hs) fun _ _ h1 h2 => d2ij_eq ha h1 h2⟩

/-- **C38.** The double sums of pair derivatives are the derivatives of the mixture attraction by temperature. -/
theorem C38_mixture_derivatives {A A1 A2 : ℕ → ℝ → ℝ} {T : ℝ} (hA : ∀ i, 0 < A i T)
    (h1 : ∀ i, ∀ᶠ t in 𝓝 T, HasDerivAt (A i) (A1 i t) t) (h2 : ∀ i, HasDerivAt (A1 i) (A2 i T) T) (N : ℕ) (z : ℕ → ℝ) :
    (∀ᶠ t in 𝓝 T, HasDerivAt (fun t => mix N (fun i => A i t) omk z)
      (∑ i ∈ range N, ∑ j ∈ range N, z i * z j * dpair (fun i => A i t) (fun i => A1 i t) omk i j) t)
    ∧ HasDerivAt (fun t => ∑ i ∈ range N, ∑ j ∈ range N, z i * z j * dpair (fun i => A i t) (fun i => A1 i t) omk i j)
      (∑ i ∈ range N, ∑ j ∈ range N, z i * z j * d2pair (fun i => A i T) (fun i => A1 i T) (fun i => A2 i T) omk i j) T := by
  constructor
  · have hall : ∀ᶠ t in 𝓝 T, ∀ i ∈ range N, ∀ j ∈ range N,
        HasDerivAt (fun t => pair (fun i => A i t) omk i j) (dpair (fun i => A i t) (fun i => A1 i t) omk i j) t := by
      rw [eventually_all_finset]
      intro i _
      rw [eventually_all_finset]
      exact fun j _ => (pair_deriv hA h1 h2 i j).1
    filter_upwards [hall] with t ht
    unfold mix
    exact HasDerivAt.fun_sum fun i hi => HasDerivAt.fun_sum fun j hj => (ht i hi j hj).const_mul _
  · exact HasDerivAt.fun_sum fun i _ => HasDerivAt.fun_sum fun j _ => ((pair_deriv hA h1 h2 i j).2).const_mul _

/-! ### The combined evaluator -/

theorem inner_eq (ha : ∀ i, 0 < a i) (hr : ∀ i, r i = √(a i)) (i j : ℕ) (s : QS) :
    (quadInner a r a1 a2 z omk i j s).a = s.a + (z i * z j * pair a omk i j + z i * z j * pair a omk i j)
    ∧ (∀ k, (quadInner a r a1 a2 z omk i j s).rows k = s.rows k
      + ((if k = j then z i * pair a omk i j else 0) + if k = i then z j * pair a omk i j else 0))
    ∧ (quadInner a r a1 a2 z omk i j s).w1 = s.w1 + -2 * (z i * z j * dpair a a1 omk i j)
    ∧ (quadInner a r a1 a2 z omk i j s).w2 = s.w2 + z i * z j * d2pair a a1 a2 omk i j
    ∧ (∀ k, (quadInner a r a1 a2 z omk i j s).drows k = s.drows k
      + -2 * ((if k = j then z i * dpair a a1 omk i j else 0) + if k = i then z j * dpair a a1 omk i j else 0))
    ∧ (quadInner a r a1 a2 z omk i j s).da = s.da ∧ (quadInner a r a1 a2 z omk i j s).d2a = s.d2a := by
  have hp : 0 < a i * a j := mul_pos (ha i) (ha j)
  have hq : 0 < √(a i * a j) := Real.sqrt_pos.2 hp
  have hsq : √(a i * a j) ^ 2 = a i * a j := Real.sq_sqrt hp.le
  have er : r i * r j = √(a i * a j) := by rw [hr, hr, Real.sqrt_mul (ha i).le]
  have ed : (a i * a1 j + a j * a1 i) * (-omk i j * (1 / √(a i * a j))) = -2 * dpair a a1 omk i j := by
    unfold dpair; field_simp
  have ed2 : 1 / √(a i * a j) * (1 / √(a i * a j)) * (-omk i j * (1 / √(a i * a j))) *
      (a i * a j * ((-0.5) * (a i * a2 j + a j * a2 i) - a1 i * a1 j) + 0.25 * (a i * a1 j + a j * a1 i) * (a i * a1 j + a j * a1 i))
      = d2pair a a1 a2 omk i j := by
    unfold d2pair
    generalize a i * a1 j + a j * a1 i = x
    have e : a i * a2 j + a j * a2 i + 2 * a1 i * a1 j = (a i * a2 j + a j * a2 i) + 2 * (a1 i * a1 j) := by ring
    rw [e]
    generalize a i * a2 j + a j * a2 i = y
    generalize a1 i * a1 j = w
    generalize √(a i * a j) = q at *
    generalize a i * a j = p at *
    subst hsq
    field_simp
    ring
  unfold quadInner
  dsimp only
  rw [if_neg (ha j).ne', er]
  dsimp only
  rw [ed, ed2]
  refine ⟨?_, fun k => ?_, ?_, ?_, fun k => ?_, rfl, rfl⟩
  · unfold pair; ring
  · simp only [addAt_apply, pair]
    by_cases h1 : k = j <;> by_cases h2 : k = i <;> simp only [h1, h2, if_true, if_false] <;> ring
  · ring
  · ring
  · simp only [addAt_apply]
    by_cases h1 : k = j <;> by_cases h2 : k = i <;> first | rw [if_pos h1] | rw [if_neg h1]
    all_goals first | rw [if_pos h2] | rw [if_neg h2]
    all_goals first | rw [if_pos h1] | rw [if_neg h1]
    all_goals first | rw [if_pos h2] | rw [if_neg h2]
    all_goals ring

theorem outer_eq (ha : ∀ i, 0 < a i) (hr : ∀ i, r i = √(a i)) (hkii : ∀ i, omk i i = 1) (i : ℕ) (s : QS) :
    (quadOuter a r a1 a2 z omk i s).a = s.a + ((∑ j ∈ range i, (z i * z j * pair a omk i j + z i * z j * pair a omk i j))
      + z i * z i * pair a omk i i)
    ∧ (quadOuter a r a1 a2 z omk i s).da = s.da + ((∑ j ∈ range i, (z i * z j * dpair a a1 omk i j + z i * z j * dpair a a1 omk i j))
      + z i * z i * dpair a a1 omk i i)
    ∧ (quadOuter a r a1 a2 z omk i s).d2a = s.d2a + ((∑ j ∈ range i, (z i * z j * d2pair a a1 a2 omk i j
      + z i * z j * d2pair a a1 a2 omk i j)) + z i * z i * d2pair a a1 a2 omk i i)
    ∧ (∀ k, (quadOuter a r a1 a2 z omk i s).rows k = s.rows k + if z i = 0 then 0 else
      (∑ j ∈ range i, ((if k = j then z i * pair a omk i j else 0) + if k = i then z j * pair a omk i j else 0))
        + if k = i then z i * pair a omk i i else 0)
    ∧ (∀ k, (quadOuter a r a1 a2 z omk i s).drows k = s.drows k + if z i = 0 then 0 else
      -2 * ((∑ j ∈ range i, ((if k = j then z i * dpair a a1 omk i j else 0) + if k = i then z j * dpair a a1 omk i j else 0))
        + if k = i then z i * dpair a a1 omk i i else 0)) := by
  have hai := ha i
  have eii : pair a omk i i = a i := by unfold pair; rw [hkii, Real.sqrt_mul_self hai.le, one_mul]
  have edii : dpair a a1 omk i i = a1 i := by
    unfold dpair; rw [hkii, Real.sqrt_mul_self hai.le]; field_simp; ring
  have ed2ii : d2pair a a1 a2 omk i i = a2 i := by
    unfold d2pair; rw [hkii, Real.sqrt_mul_self hai.le]; field_simp; ring
  by_cases hz : z i = 0
  · unfold quadOuter
    dsimp only
    rw [if_pos (.inr hz)]
    simp [hz]
  · have hL := fun (s : QS) => loop_add (fun s : QS => s.a) i (quadInner a r a1 a2 z omk i) s _
      (fun j _ s => (inner_eq ha hr i j s).1)
    have hR := fun (s : QS) (k : ℕ) => loop_add (fun s : QS => s.rows k) i (quadInner a r a1 a2 z omk i) s _
      (fun j _ s => (inner_eq ha hr i j s).2.1 k)
    have hW1 := fun (s : QS) => loop_add (fun s : QS => s.w1) i (quadInner a r a1 a2 z omk i) s _
      (fun j _ s => (inner_eq ha hr i j s).2.2.1)
    have hW2 := fun (s : QS) => loop_add (fun s : QS => s.w2) i (quadInner a r a1 a2 z omk i) s _
      (fun j _ s => (inner_eq ha hr i j s).2.2.2.1)
    have hD := fun (s : QS) (k : ℕ) => loop_add (fun s : QS => s.drows k) i (quadInner a r a1 a2 z omk i) s _
      (fun j _ s => (inner_eq ha hr i j s).2.2.2.2.1 k)
    have hDa := fun (s : QS) => loop_add (fun s : QS => s.da) i (quadInner a r a1 a2 z omk i) s (fun _ => 0)
      (fun j _ s => by rw [(inner_eq ha hr i j s).2.2.2.2.2.1, add_zero])
    have hD2 := fun (s : QS) => loop_add (fun s : QS => s.d2a) i (quadInner a r a1 a2 z omk i) s (fun _ => 0)
      (fun j _ s => by rw [(inner_eq ha hr i j s).2.2.2.2.2.2, add_zero])
    unfold quadOuter
    dsimp only
    rw [if_neg (by rintro (h | h); exacts [hai.ne' h, hz h])]
    dsimp only
    simp only [hL, hW1, hW2, hDa, hD2, addAt_apply, hR, hD, if_neg hz, eii, edii, ed2ii, sum_const_zero, ← mul_sum, sum_add_distrib]
    refine ⟨by ring, by ring, by ring, fun k => ?_, fun k => ?_⟩
    · by_cases h : k = i <;> simp only [h, if_true, if_false] <;> ring
    · by_cases h : k = i <;> simp only [h, if_true, if_false] <;> ring

/-- **C38.** `a_alpha_and_derivatives_quadratic_terms` returns the double sum and its temperature derivatives, for every composition, when
the interaction of a component with itself is zero. -/
theorem C38_combined (ha : ∀ i, 0 < a i) (hr : ∀ i, r i = √(a i)) (hs : Sym omk) (hkii : ∀ i, omk i i = 1) :
    (quadDeriv N a r a1 a2 z omk).a = mix N a omk z
    ∧ (quadDeriv N a r a1 a2 z omk).da = ∑ i ∈ range N, ∑ j ∈ range N, z i * z j * dpair a a1 omk i j
    ∧ (quadDeriv N a r a1 a2 z omk).d2a = ∑ i ∈ range N, ∑ j ∈ range N, z i * z j * d2pair a a1 a2 omk i j := by
  unfold quadDeriv mix
  dsimp only
  rw [loop_add (fun s : QS => s.a) N (quadOuter a r a1 a2 z omk) _ _ (fun i _ s => (outer_eq ha hr hkii i s).1),
    loop_add (fun s : QS => s.da) N (quadOuter a r a1 a2 z omk) _ _ (fun i _ s => (outer_eq ha hr hkii i s).2.1),
    loop_add (fun s : QS => s.d2a) N (quadOuter a r a1 a2 z omk) _ _ (fun i _ s => (outer_eq ha hr hkii i s).2.2.1)]
  simp only [zero_add]
  refine ⟨sum_lower N _ ?_, sum_lower N _ ?_, sum_lower N _ ?_⟩
  · exact fun i _ j _ => mix_comm_term hs i j
  · exact fun i _ j _ => by rw [dpair_symm hs]; ring
  · exact fun i _ j _ => by rw [d2pair_symm hs]; ring

theorem rows_sum {D : ℕ → ℕ → ℝ} (hs : ∀ i j, D i j = D j i) {k : ℕ} (hk : k < N) :
    ∑ i ∈ range N, (if z i = 0 then (0 : ℝ) else (∑ j ∈ range i, ((if k = j then z i * D i j else 0) + if k = i then z j * D i j else 0))
        + if k = i then z i * D i i else 0)
      = ∑ i ∈ Ico (k + 1) N, z i * D k i + if z k = 0 then 0 else ∑ j ∈ range (k + 1), z j * D k j := by
  have e : ∀ i ∈ range N, (if z i = 0 then (0 : ℝ) else (∑ j ∈ range i, ((if k = j then z i * D i j else 0)
        + if k = i then z j * D i j else 0)) + if k = i then z i * D i i else 0)
      = (if k < i then z i * D k i else 0) + if k = i then (if z k = 0 then 0 else ∑ j ∈ range (k + 1), z j * D k j) else 0 := by
    intro i _
    by_cases hz : z i = 0
    · rw [if_pos hz]
      by_cases hki : k = i
      · subst hki; simp [hz]
      · simp [hz, hki]
    · rw [if_neg hz, sum_add_distrib, sum_ite_eq]
      simp only [mem_range]
      by_cases hki : k = i
      · subst hki
        simp only [lt_irrefl, if_false, if_true, zero_add, if_neg hz]
        rw [sum_range_succ]
      · simp only [if_neg hki, sum_const_zero, add_zero]
        rw [hs i k]
  rw [sum_congr rfl e, sum_add_distrib, sum_ite_eq, if_pos (mem_range.2 hk), ← sum_filter]
  congr 1
  refine sum_congr ?_ fun _ _ => rfl
  ext i; simp only [mem_filter, mem_range, mem_Ico]; omega

/-- Rows of the combined evaluator: exactly what is stored. -/
theorem combined_rows (ha : ∀ i, 0 < a i) (hr : ∀ i, r i = √(a i)) (hs : Sym omk) (hkii : ∀ i, omk i i = 1) {k : ℕ} (hk : k < N) :
    (quadDeriv N a r a1 a2 z omk).rows k
      = (∑ i ∈ Ico (k + 1) N, z i * pair a omk k i + if z k = 0 then 0 else ∑ j ∈ range (k + 1), z j * pair a omk k j)
    ∧ (quadDeriv N a r a1 a2 z omk).drows k
      = (∑ i ∈ Ico (k + 1) N, z i * dpair a a1 omk k i + if z k = 0 then 0 else ∑ j ∈ range (k + 1), z j * dpair a a1 omk k j) := by
  unfold quadDeriv
  dsimp only
  rw [loop_add (fun s : QS => s.rows k) N (quadOuter a r a1 a2 z omk) _ _ (fun i _ s => (outer_eq ha hr hkii i s).2.2.2.1 k),
    loop_add (fun s : QS => s.drows k) N (quadOuter a r a1 a2 z omk) _ _ (fun i _ s => (outer_eq ha hr hkii i s).2.2.2.2 k)]
  simp only [zero_add]
  refine ⟨rows_sum (pair_symm hs) hk, ?_⟩
  rw [← rows_sum (dpair_symm hs) hk, sum_mul]
  refine sum_congr rfl fun i _ => ?_
  by_cases h : z i = 0
  · simp [h]
  · rw [if_neg h, if_neg h]; ring

/-- **C39.** Row sums of the combined evaluator are complete for the components that are present. -/
theorem C39_combined_rows (ha : ∀ i, 0 < a i) (hr : ∀ i, r i = √(a i)) (hs : Sym omk) (hkii : ∀ i, omk i i = 1) {k : ℕ} (hk : k < N)
    (hz : z k ≠ 0) :
    (quadDeriv N a r a1 a2 z omk).rows k = ∑ j ∈ range N, z j * pair a omk k j
    ∧ (quadDeriv N a r a1 a2 z omk).drows k = ∑ j ∈ range N, z j * dpair a a1 omk k j := by
  obtain ⟨h1, h2⟩ := combined_rows (a1 := a1) (a2 := a2) (z := z) ha hr hs hkii hk
  rw [h1, h2, if_neg hz, if_neg hz]
  constructor <;> rw [sum_split_at N k hk, sum_range_succ, add_assoc]

/-- **C39.** For an absent component the combined evaluator sums only over the components listed after it. -/
theorem C39_combined_rows_absent_partial (ha : ∀ i, 0 < a i) (hr : ∀ i, r i = √(a i)) (hs : Sym omk) (hkii : ∀ i, omk i i = 1)
    {k : ℕ} (hk : k < N) (hz : z k = 0) :
    (quadDeriv N a r a1 a2 z omk).rows k = ∑ j ∈ Ico (k + 1) N, z j * pair a omk k j
    ∧ (quadDeriv N a r a1 a2 z omk).drows k = ∑ j ∈ Ico (k + 1) N, z j * dpair a a1 omk k j := by
  obtain ⟨h1, h2⟩ := combined_rows (a1 := a1) (a2 := a2) (z := z) ha hr hs hkii hk
  rw [h1, h2, if_pos hz, if_pos hz, add_zero, add_zero]
  exact ⟨rfl, rfl⟩

/-- **C39.** So an absent component listed last gets the row sum zero instead of its attraction to the others. The two evaluators disagree: the
fugacity coefficient of the absent component depends on which of them ran last. -/
theorem C39_combined_rows_fails : ∃ (a r a1 a2 z : ℕ → ℝ) (omk : ℕ → ℕ → ℝ), (∀ i, 0 < a i) ∧ (∀ i, r i = √(a i)) ∧ Sym omk
    ∧ (∀ i, omk i i = 1) ∧ (∀ i, 0 ≤ z i) ∧ (∑ i ∈ range 2, z i = 1)
    ∧ (quadDeriv 2 a r a1 a2 z omk).rows 1 = 0 ∧ (quadTerms 2 a r z omk).2 1 = 1 := by
  refine ⟨fun _ => 1, fun _ => 1, fun _ => 0, fun _ => 0, fun i => if i = 0 then 1 else 0, fun _ _ => 1, fun _ => one_pos, ?_,
    fun _ _ => rfl, fun _ => rfl, ?_, ?_, ?_, ?_⟩
  · simp
  · intro i; dsimp only; split_ifs <;> norm_num
  · simp
  · rw [(C39_combined_rows_absent_partial (k := 1) (by intro; norm_num) (by simp) (fun _ _ => rfl) (fun _ => rfl) (by norm_num)
      (by simp)).1]
    simp
  · rw [C39_quadratic_rows (by intro; norm_num) (by simp) (fun _ _ => rfl) (by norm_num)]
    simp [pair, sum_range_succ]

/-- The entries of the derivative matrices: complete for present first components. -/
theorem fullMat_cell (d : ℕ → ℕ → ℝ) {p q : ℕ} (hpq : p ≤ q) (hq : q < N) :
    fullMat N d z p q = (if 0 < z p then d p q else 0) ∧ fullMat N d z q p = if 0 < z p then d p q else 0 := by
  classical
  have hp : p < N := lt_of_le_of_lt hpq hq
  have key : ∀ π : (ℕ → ℕ → ℝ) → ℝ, π (fun _ _ => 0) = 0 →
      (∀ i j s, i ≤ j → π (put (put s j i (d i j)) i j (d i j)) = if i = p ∧ j = q then d p q else π s) →
      π (fullMat N d z) = if 0 < z p then d p q else 0 := by
    intro π h0 h
    have hin : ∀ i < N, ∀ s, 0 < z i →
        π (loop N (fun j s => if j < i then s else put (put s j i (d i j)) i j (d i j)) s) = if i = p then d p q else π s := by
      intro i hi s _
      by_cases hip : i = p
      · rw [if_pos hip, loop_set π N _ s q (d p q)]
        · rw [if_pos hq]
        · intro j _ s
          by_cases hji : j < i
          · rw [if_pos hji, if_neg (by omega)]
          · rw [if_neg hji, h i j s (by omega)]
            by_cases hjq : j = q
            · rw [if_pos ⟨hip, hjq⟩, if_pos hjq]
            · rw [if_neg (fun h' => hjq h'.2), if_neg hjq]
      · rw [if_neg hip, loop_set π N _ s N (d p q)]
        · rw [if_neg (lt_irrefl N)]
        · intro j hj s
          rw [if_neg (by omega : ¬ j = N)]
          by_cases hji : j < i
          · rw [if_pos hji]
          · rw [if_neg hji, h i j s (by omega), if_neg (fun h' => hip h'.1)]
    unfold fullMat
    by_cases hz : 0 < z p
    · rw [if_pos hz, loop_set π N _ _ p (d p q)]
      · rw [if_pos hp]
      · intro i hi s
        by_cases hzi : 0 < z i
        · rw [if_pos hzi, hin i hi s hzi]
        · rw [if_neg hzi, if_neg (fun h' : i = p => hzi (by rw [h']; exact hz))]
    · rw [if_neg hz, loop_set π N _ _ N 0]
      · rw [if_neg (lt_irrefl N), h0]
      · intro i hi s
        rw [if_neg (by omega : ¬ i = N)]
        by_cases hzi : 0 < z i
        · rw [if_pos hzi, hin i hi s hzi, if_neg (fun h' : i = p => hz (by rw [← h']; exact hzi))]
        · rw [if_neg hzi]
  constructor
  · refine key (fun s => s p q) rfl fun i j s hij => ?_
    simp only [put]
    by_cases h : i = p ∧ j = q
    · obtain ⟨rfl, rfl⟩ := h; simp
    · rw [if_neg h, if_neg (fun h' => h ⟨h'.1.symm, h'.2.symm⟩), if_neg]
      rintro ⟨h1, h2⟩; exact h (by omega)
  · refine key (fun s => s q p) rfl fun i j s hij => ?_
    simp only [put]
    by_cases h : i = p ∧ j = q
    · obtain ⟨rfl, rfl⟩ := h; simp
    · rw [if_neg h, if_neg, if_neg (fun h' => h ⟨h'.2.symm, h'.1.symm⟩)]
      rintro ⟨h1, h2⟩; exact h (by omega)

/-- **C39.** `da_alpha_dT_ijs` and `d2a_alpha_dT2_ijs` hold the pair derivatives when every component is present. -/
theorem C39_derivative_matrices (ha : ∀ i, 0 < a i) (hs : Sym omk) (hz : ∀ i, 0 < z i) {i j : ℕ} (hi : i < N) (hj : j < N) :
    fullMat N (dij a a1 omk (aijs N a omk).inv) z i j = dpair a a1 omk i j
    ∧ fullMat N (d2ij a a1 a2 omk (aijs N a omk).inv) z i j = d2pair a a1 a2 omk i j := by
  rcases le_total i j with h | h
  · rw [(fullMat_cell _ h hj).1, (fullMat_cell _ h hj).1, if_pos (hz i), if_pos (hz i), dij_eq ha h hj, d2ij_eq ha h hj]
    exact ⟨rfl, rfl⟩
  · rw [(fullMat_cell _ h hi).2, (fullMat_cell _ h hi).2, if_pos (hz j), if_pos (hz j), dij_eq ha h hi, d2ij_eq ha h hi,
      dpair_symm hs, d2pair_symm hs]
    exact ⟨rfl, rfl⟩

/-- **C39.** They do not when one is absent: the derivative of the pair of an absent component listed first with a present one is reported as zero,
although the pair itself is there. -/
theorem C39_derivative_matrices_fails : ∃ (a a1 z : ℕ → ℝ) (omk : ℕ → ℕ → ℝ), (∀ i, 0 < a i) ∧ Sym omk ∧ (∀ i, 0 ≤ z i)
    ∧ (∑ i ∈ range 2, z i = 1) ∧ fullMat 2 (dij a a1 omk (aijs 2 a omk).inv) z 0 1 = 0
    ∧ fullMat 2 (dij a a1 omk (aijs 2 a omk).inv) z 1 0 = 0 ∧ dpair a a1 omk 0 1 = 1
    ∧ (aijs 2 a omk).ijs 0 1 = pair a omk 0 1 := by
  refine ⟨fun _ => 1, fun _ => 1, fun i => if i = 1 then 1 else 0, fun _ _ => 1, fun _ => one_pos, fun _ _ => rfl, ?_, ?_, ?_, ?_, ?_, ?_⟩
  · intro i; dsimp only; split_ifs <;> norm_num
  · simp [sum_range_succ]
  · rw [(fullMat_cell _ (p := 0) (q := 1) (by norm_num) (by norm_num)).1]; simp
  · rw [(fullMat_cell _ (p := 0) (q := 1) (by norm_num) (by norm_num)).2]; simp
  · norm_num [dpair]
  · exact C38_pairs (by intro; norm_num) (fun _ _ => rfl) (by norm_num) (by norm_num)

/-- **C39.** `_a_alpha_j_rows` computed from a symmetric matrix is complete for every composition. -/
theorem C39_rows_from_matrix {M : ℕ → ℕ → ℝ} (hs : ∀ i < N, ∀ j < N, M i j = M j i) {k : ℕ} (hk : k < N) :
    rowsOf N M z k = ∑ j ∈ range N, z j * M k j := by
  unfold rowsOf
  rw [loop_add (fun s : ℕ → ℝ => s k) N _ _ (fun i => (∑ j ∈ range i, ((if k = j then z i * M i j else 0)
    + if k = i then z j * M i j else 0)) + if k = i then z i * M i i else 0), zero_add, sum_add_distrib, sum_ite_eq,
    if_pos (mem_range.2 hk)]
  · refine Eq.trans ?_ (sum_split_at N k hk (fun j => z j * M k j)).symm
    congr 1
    rw [← sum_row N k hk (fun i j => z i * M k i)]
    refine sum_congr rfl fun i hi => sum_congr rfl fun j hj => ?_
    have hi' := mem_range.1 hi
    have hj' := mem_range.1 hj
    by_cases h1 : k = j
    · subst h1
      rw [hs i hi' k hk]
      simp [show k ≠ i by omega]
    · by_cases h2 : k = i
      · subst h2; simp [h1]
      · simp [h1, h2]
  · intro i _ s
    rw [addAt_apply, loop_add (fun s : ℕ → ℝ => s k) i _ s (fun j => (if k = j then z i * M i j else 0)
      + if k = i then z j * M i j else 0), add_assoc]
    intro j _ s
    simp only [addAt_apply]
    ring

/-! ### Where the evaluators disagree -/

/-- **C38.** With a non-zero interaction of a component with itself the combined evaluator ignores it, the others do not. -/
theorem C38_self_interaction_fails : ∃ (a r a1 a2 z : ℕ → ℝ) (omk : ℕ → ℕ → ℝ), (∀ i, 0 < a i) ∧ (∀ i, r i = √(a i)) ∧ Sym omk
    ∧ (quadDeriv 1 a r a1 a2 z omk).a = 1 ∧ (quadTerms 1 a r z omk).1 = 1 / 2 ∧ mix 1 a omk z = 1 / 2 := by
  refine ⟨fun _ => 1, fun _ => 1, fun _ => 0, fun _ => 0, fun _ => 1, fun _ _ => 1 / 2, fun _ => one_pos, by simp, fun _ _ => rfl, ?_, ?_, ?_⟩
  · norm_num [quadDeriv, loop, quadOuter, List.range_succ, quadInner]
  · rw [C38_quadratic (by intro; norm_num) (by simp) (fun _ _ => rfl)]
    norm_num [mix, pair]
  · norm_num [mix, pair]

/-- **C38.** With an unsymmetric interaction matrix the evaluators use different halves of it. -/
theorem C38_asymmetric_fails : ∃ (a r z : ℕ → ℝ) (omk : ℕ → ℕ → ℝ), (∀ i, 0 < a i) ∧ (∀ i, r i = √(a i)) ∧ (∀ i, 0 < z i)
    ∧ (aAlpha 2 (aijs 2 a omk).ijs z) = 6 ∧ (quadTerms 2 a r z omk).1 = 8 ∧ mix 2 a omk z = 7 := by
  refine ⟨fun _ => 1, fun _ => 1, fun _ => 1, fun i j => if i = 1 ∧ j = 0 then 3 else if i = 0 ∧ j = 1 then 2 else 1, fun _ => one_pos, by simp,
    fun _ => one_pos, ?_, ?_, ?_⟩
  · unfold aAlpha
    simp only [acc_eq, sum_range_succ, sum_range_zero, if_pos one_pos]
    norm_num
    rw [(aijs_cell 0 1 (by norm_num) (by norm_num)).1, (aijs_cell 0 0 (by norm_num) (by norm_num)).1,
      (aijs_cell 1 1 (by norm_num) (by norm_num)).1]
    norm_num
  · norm_num [quadTerms, acc_eq, sum_range_succ, loop, List.range_succ, addAt]
  · norm_num [mix, pair, sum_range_succ]

/-- **C38.** A negative entry of the composition (as met in extrapolations) is skipped by `a_alpha_and_derivatives` only. -/
theorem C38_negative_fails : ∃ (a r z : ℕ → ℝ) (omk : ℕ → ℕ → ℝ), (∀ i, 0 < a i) ∧ (∀ i, r i = √(a i)) ∧ Sym omk
    ∧ aAlpha 1 (aijs 1 a omk).ijs z = 0 ∧ (quadTerms 1 a r z omk).1 = 1 := by
  refine ⟨fun _ => 1, fun _ => 1, fun _ => -1, fun _ _ => 1, fun _ => one_pos, by simp, fun _ _ => rfl, ?_, ?_⟩
  · norm_num [aAlpha, acc_eq]
  · rw [C38_quadratic (by intro; norm_num) (by simp) (fun _ _ => rfl)]
    norm_num [mix, pair]

/-- Two components with an interaction parameter. -/
noncomputable def demoOmk : ℕ → ℕ → ℝ := fun i j => if i = j then 1 else 1 / 2

theorem demo_sym : Sym demoOmk := fun i j => by unfold demoOmk; simp only [eq_comm]

example : mix 2 (fun i => ((i : ℝ) + 1) ^ 2) demoOmk (fun i => (i : ℝ) + 1) = 21 := by
  simp only [mix, sum_range_succ, sum_range_zero, pair, demoOmk]
  norm_num
  rw [show (4 : ℝ) = 2 ^ 2 by norm_num, show (16 : ℝ) = 4 ^ 2 by norm_num, Real.sqrt_sq (by norm_num), Real.sqrt_sq (by norm_num)]
  norm_num

example := C38_pairs (N := 3) (a := fun i => (i : ℝ) + 1) (omk := demoOmk) (i := 2) (j := 1) (fun i => by positivity) demo_sym
  (by norm_num) (by norm_num)
example := C38_value (N := 3) (a := fun i => (i : ℝ) + 1) (omk := demoOmk) (z := fun i => (i : ℝ)) (fun i => by positivity) demo_sym
  (fun i => by positivity)
example := C38_full_value (N := 3) (a := fun i => (i : ℝ) + 1) (omk := demoOmk) (z := fun i => (i : ℝ) - 1) (fun i => by positivity) demo_sym
example := C38_full_derivatives (N := 3) (a := fun i => (i : ℝ) + 1) (a1 := fun i => (i : ℝ)) (a2 := fun _ => 1) (omk := demoOmk)
  (z := fun i => (i : ℝ)) (fun i => by positivity) demo_sym (fun i => by positivity)
example := C38_quadratic (N := 3) (a := fun i => (i : ℝ) + 1) (r := fun i => √((i : ℝ) + 1)) (omk := demoOmk) (z := fun i => (i : ℝ) - 1)
  (fun i => by positivity) (fun _ => rfl) demo_sym
example := C38_combined (N := 3) (a := fun i => (i : ℝ) + 1) (r := fun i => √((i : ℝ) + 1)) (a1 := fun i => (i : ℝ)) (a2 := fun _ => 1)
  (omk := demoOmk) (z := fun i => (i : ℝ) - 1) (fun i => by positivity) (fun _ => rfl) demo_sym (fun i => by simp [demoOmk])
example := C39_quadratic_rows (N := 3) (a := fun i => (i : ℝ) + 1) (r := fun i => √((i : ℝ) + 1)) (omk := demoOmk) (z := fun i => (i : ℝ))
  (k := 0) (fun i => by positivity) (fun _ => rfl) demo_sym (by norm_num)
example := C39_combined_rows (N := 3) (a := fun i => (i : ℝ) + 1) (r := fun i => √((i : ℝ) + 1)) (a1 := fun i => (i : ℝ)) (a2 := fun _ => 1)
  (omk := demoOmk) (z := fun i => (i : ℝ)) (k := 1) (fun i => by positivity) (fun _ => rfl) demo_sym (fun i => by simp [demoOmk]) (by norm_num)
  (by norm_num)
example := C39_derivative_matrices (N := 3) (a := fun i => (i : ℝ) + 1) (a1 := fun i => (i : ℝ)) (a2 := fun _ => 1) (omk := demoOmk)
  (z := fun i => (i : ℝ) + 1) (i := 2) (j := 1) (fun i => by positivity) demo_sym (fun i => by positivity) (by norm_num) (by norm_num)
example := C39_rows_from_matrix (N := 3) (z := fun i => (i : ℝ)) (M := demoOmk) (k := 0) (fun i _ j _ => demo_sym i j) (by norm_num)
example := C38_mixture_derivatives (A := fun i t => t + i) (A1 := fun _ _ => 1) (A2 := fun _ _ => 0) (T := 1) (omk := demoOmk)
  (fun i => by positivity) (fun i => Eventually.of_forall fun t => (hasDerivAt_id' t).add_const _) (fun _ => hasDerivAt_const _ _) 3
  (fun i => (i : ℝ))

end Verif.MixRule
