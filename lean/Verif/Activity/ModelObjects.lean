import Mathlib.Tactic
import Verif.Activity.InteractionExp

/-!
# Objects of the activity coefficient models: coefficients, representation, new states (C125)

The constructors of `NRTL` (`thermo/nrtl.py` 607-733), `Wilson` (`thermo/wilson.py` 758-843) and `UNIQUAC`
(`thermo/uniquac.py` 670-752) for lists, their `__repr__`, `missing_interaction_parameters`, `to_T_xs`, and
`Wilson.from_DDBST` (`wilson.py` 606-756).

A matrix is a list of rows of rational numbers.  An exception is its class name.  numpy arrays are not modelled.
-/

namespace Verif.ModelObj

abbrev Mat := List (List ℚ)

/-- A value read as `m[i][j]`; `none` is the `IndexError`. -/
def entry (m : Mat) (i j : ℕ) : Option ℚ := (m[i]?).bind (·[j]?)

/-- `[[0.0]*N for _ in range(N)]`. -/
def zeros (N : ℕ) : Mat := (List.range N).map fun _ => (List.range N).map fun _ => 0

/-- All of a list of results, `none` at the first failure. -/
def allSome {α : Type} : List (Option α) → Option (List α)
  | [] => some []
  | none :: _ => none
  | some a :: l => (allSome l).map (a :: ·)

theorem allSome_map {α β : Type} (l : List α) (f : α → Option β) (g : α → β) (h : ∀ a ∈ l, f a = some (g a)) : allSome (l.map f) = some (l.map g) := by
  induction l with
  | nil => rfl
  | cons a l ih =>
    rw [List.map_cons, h a (by simp), allSome, ih (fun b hb => h b (by simp [hb]))]
    rfl

/-- `[[i[k] for i in l] for l in tau_coeffs]` (`nrtl.py` 647-652). -/
def slice (c : List (List (List ℚ))) (k : ℕ) : Option Mat := allSome (c.map fun l => allSome (l.map fun v => v[k]?))

/-- The checks of the sizes against each other (`nrtl.py` 635-643, `wilson.py` 770-778, `uniquac.py` 695-703): number of rows, length of the first row. -/
def sizesOk (l : List (Option Mat)) : Bool :=
  let given := l.filterMap id
  given.all (fun m => m ≠ []) && ((given.map List.length).dedup.length ≤ 1) && ((given.map fun m => (m.headD []).length).dedup.length ≤ 1)

/-- The scan of a row for a nonzero coefficient, which stops at the first (`nrtl.py` 717-720). -/
def scanRow (r : List ℚ) : List ℕ → Option Bool
  | [] => some false
  | j :: js => match r[j]? with
    | none => none
    | some v => if v ≠ 0 then some true else scanRow r js

/-- The scan of a matrix (`nrtl.py` 714-723, `wilson.py` 833-843). -/
def scan (N : ℕ) (m : Mat) : List ℕ → Option Bool
  | [] => some false
  | i :: is => match m[i]? with
    | none => none
    | some r => match scanRow r (List.range N) with
      | none => none
      | some true => some true
      | some false => scan N m is

/-- Where coefficients can come from: a coefficient array (`tau_coeffs`, `lambda_coeffs`), that of alphas, one tuple, or one by one. -/
structure Src where
  coeffs : Option (List (List (List ℚ))) := none
  alpha : Option (List (List (List ℚ))) := none
  tuple : Option (List (Option Mat)) := none
  single : List (Option Mat)
  deriving DecidableEq

/-- A model: its matrices, whether each has a nonzero coefficient, and whether alpha is independent of temperature. -/
structure Model where
  mats : List Mat
  nonzero : List Bool := []
  indep : Bool := true
  deriving DecidableEq

def ofOption {α : Type} (e : String) : Option α → Except String α
  | none => .error e
  | some a => .ok a

/-- The flags of the first `n` matrices (`nrtl.py` 711-723). -/
def flags (N n : ℕ) (mats : List Mat) : Option (List Bool) := allSome ((mats.take n).map fun m => scan N m (List.range N))

/-- All coefficients `alpha_ds`, read without stopping (`nrtl.py` 726-733). -/
def allZero (N : ℕ) (m : Mat) : Option Bool :=
  (allSome ((List.range N).map fun i => allSome ((List.range N).map fun j => entry m i j))).map fun rows => rows.all fun r => r.all fun v => v = 0

/-- `NRTL.__init__` (`nrtl.py` 607-733). -/
def nrtl (N : ℕ) (s : Src) : Except String Model :=
  let n := (s.coeffs.isSome || s.alpha.isSome).toNat + s.tuple.isSome.toNat + (s.single.any Option.isSome).toNat
  if 1 < n then .error "ValueError"
  else
    let t := s.tuple.getD s.single
    let mats : Except String (List Mat) := match s.coeffs, s.alpha with
      | some tc, some ac => ofOption "IndexError" (allSome (((List.range 6).map (slice tc)) ++ (List.range 2).map (slice ac)))
      | _, _ => if sizesOk t then ofOption "IndexError" (allSome ((List.range 8).map fun k => (t[k]?).map fun o => o.getD (zeros N))) else .error "ValueError"
    mats.bind fun ms => (ofOption "IndexError" (flags N 6 ms)).bind fun fl => (ofOption "IndexError" (allZero N (ms.getD 7 []))).map fun z => ⟨ms, fl, z⟩

/-- The matrices from six optional ones, missing ones being zero (`wilson.py` 801-825, `uniquac.py` 728-752). -/
def padded (N : ℕ) (t : List (Option Mat)) : List Mat := (List.range 6).map fun k => (t.getD k none).getD (zeros N)

/-- `Wilson.__init__` (`wilson.py` 758-843). -/
def wilson (N : ℕ) (s : Src) : Except String Model :=
  let t := s.tuple.getD s.single
  let mats : Except String (List Mat) := match s.coeffs with
    | some tc => ofOption "IndexError" (allSome ((List.range 6).map (slice tc)))
    | none => if sizesOk t then .ok (padded N t) else .error "ValueError"
  mats.bind fun ms => (ofOption "IndexError" (flags N 6 ms)).map fun fl => ⟨ms, fl, true⟩

/-- `UNIQUAC.__init__` (`uniquac.py` 670-752). -/
def uniquac (N : ℕ) (s : Src) : Except String Model :=
  let n := s.coeffs.isSome.toNat + s.tuple.isSome.toNat + (s.single.any Option.isSome).toNat
  if 1 < n then .error "ValueError"
  else
    let t := s.tuple.getD s.single
    let mats : Except String (List Mat) := match s.coeffs with
      | some tc => ofOption "IndexError" (allSome ((List.range 6).map (slice tc)))
      | none => if sizesOk t then .ok (padded N t) else .error "ValueError"
    mats.map fun ms => ⟨ms, [], true⟩

/-! ## Reference data -/

/-- The matrix with given entries. -/
def mat (N : ℕ) (f : ℕ → ℕ → ℚ) : Mat := (List.range N).map fun i => (List.range N).map fun j => f i j

/-- The array whose entry for a pair is the list of the coefficients `k0`, `k0 + 1`, .. of the pair. -/
def stack (N k0 n : ℕ) (f : ℕ → ℕ → ℕ → ℚ) : List (List (List ℚ)) := (List.range N).map fun i => (List.range N).map fun j => (List.range n).map fun k => f (k0 + k) i j

/-- The flag a matrix should have. -/
def flagOf (N : ℕ) (f : ℕ → ℕ → ℚ) : Bool := (List.range N).any fun i => (List.range N).any fun j => f i j ≠ 0

theorem flagOf_iff (N : ℕ) (f : ℕ → ℕ → ℚ) : flagOf N f = true ↔ ∃ i < N, ∃ j < N, f i j ≠ 0 := by
  simp [flagOf]

theorem zeros_eq (N : ℕ) : zeros N = mat N fun _ _ => 0 := rfl

theorem entry_mat (N : ℕ) (f : ℕ → ℕ → ℚ) (i j : ℕ) (hi : i < N) (hj : j < N) : entry (mat N f) i j = some (f i j) := by
  simp [entry, mat, hi, hj]

theorem slice_stack (N k0 n k : ℕ) (f : ℕ → ℕ → ℕ → ℚ) (hk : k < n) : slice (stack N k0 n f) k = some (mat N (f (k0 + k))) := by
  unfold slice stack mat
  rw [List.map_map]
  apply allSome_map
  intro i _
  simp only [Function.comp_apply, List.map_map]
  apply allSome_map
  intro j _
  simp [hk]

theorem scanRow_spec (r : List ℚ) (g : ℕ → ℚ) (l : List ℕ) (h : ∀ j ∈ l, r[j]? = some (g j)) : scanRow r l = some (l.any fun j => g j ≠ 0) := by
  induction l with
  | nil => rfl
  | cons j l ih =>
    simp only [scanRow, h j (by simp)]
    by_cases hz : g j ≠ 0
    · simp [hz]
    · rw [if_neg hz, ih (fun k hk => h k (by simp [hk]))]
      simp only [List.any_cons, hz, decide_false, Bool.false_or]

theorem scan_spec (N : ℕ) (f : ℕ → ℕ → ℚ) (l : List ℕ) (h : ∀ i ∈ l, i < N) : scan N (mat N f) l = some (l.any fun i => (List.range N).any fun j => f i j ≠ 0) := by
  induction l with
  | nil => rfl
  | cons i l ih =>
    have hi : i < N := h i (by simp)
    have e : (mat N f)[i]? = some ((List.range N).map fun j => f i j) := by simp [mat, hi]
    have hr := scanRow_spec ((List.range N).map fun j => f i j) (f i) (List.range N) (by intro j hj; simp [List.mem_range.1 hj])
    have ih' := ih (fun k hk => h k (by simp [hk]))
    simp only [scan, e, hr, List.any_cons]
    cases (List.range N).any fun j => decide (f i j ≠ 0) with
    | true => simp
    | false => simpa using ih'

theorem scan_mat (N : ℕ) (f : ℕ → ℕ → ℚ) : scan N (mat N f) (List.range N) = some (flagOf N f) := scan_spec N f _ (fun _ h => List.mem_range.1 h)

theorem allZero_mat (N : ℕ) (f : ℕ → ℕ → ℚ) : allZero N (mat N f) = some (!flagOf N f) := by
  unfold allZero
  rw [allSome_map _ _ (fun i => (List.range N).map fun j => f i j)]
  · simp only [Option.map_some, Option.some.injEq, flagOf, List.all_map, Bool.not_eq_not]
    rw [Bool.eq_iff_iff]
    simp [List.all_eq_true]
  · intro i hi
    apply allSome_map
    intro j hj
    exact entry_mat N f i j (List.mem_range.1 hi) (List.mem_range.1 hj)

theorem mat_length (N : ℕ) (f : ℕ → ℕ → ℚ) : (mat N f).length = N := by simp [mat]

theorem mat_head (N : ℕ) (f : ℕ → ℕ → ℚ) (h : 0 < N) : ((mat N f).headD []).length = N := by
  obtain ⟨n, rfl⟩ : ∃ n, N = n + 1 := ⟨N - 1, by omega⟩
  simp [mat, List.range_succ_eq_map]

theorem dedup_const (l : List ℕ) (n : ℕ) (h : ∀ a ∈ l, a = n) : l.dedup.length ≤ 1 := by
  have h1 : ∀ a ∈ l.dedup, a = n := fun a ha => h a (List.mem_dedup.1 ha)
  have h2 := List.nodup_dedup l
  match hd : l.dedup with
  | [] => simp
  | [a] => simp
  | a :: b :: t =>
    rw [hd] at h1 h2
    have e1 := h1 a (by simp)
    have e2 := h1 b (by simp)
    rw [List.nodup_cons] at h2
    exact absurd (by simp [e1, e2]) h2.1

theorem sizesOk_mats (N : ℕ) (hN : 0 < N) (l : List (Option Mat)) (h : ∀ m, some m ∈ l → ∃ f, m = mat N f) : sizesOk l = true := by
  have hg : ∀ m ∈ l.filterMap id, ∃ f, m = mat N f := by
    intro m hm
    simp only [List.mem_filterMap, id] at hm
    obtain ⟨o, ho, rfl⟩ := hm
    exact h m ho
  unfold sizesOk
  simp only [Bool.and_eq_true, decide_eq_true_eq]
  refine ⟨⟨?_, ?_⟩, ?_⟩
  · rw [List.all_eq_true]
    intro m hm
    obtain ⟨f, rfl⟩ := hg m hm
    have : mat N f ≠ [] := fun e => by
      have := mat_length N f
      rw [e] at this
      simp at this
      omega
    simpa using this
  · apply dedup_const _ N
    intro a ha
    obtain ⟨m, hm, rfl⟩ := List.mem_map.1 ha
    obtain ⟨f, rfl⟩ := hg m hm
    exact mat_length N f
  · apply dedup_const _ N
    intro a ha
    obtain ⟨m, hm, rfl⟩ := List.mem_map.1 ha
    obtain ⟨f, rfl⟩ := hg m hm
    exact mat_head N f hN

/-- The model with coefficients `f k i j`: NRTL has eight matrices, the last being that of the temperature dependence of alpha; the others have six. -/
def nrtlRef (N : ℕ) (f : ℕ → ℕ → ℕ → ℚ) : Model := ⟨(List.range 8).map fun k => mat N (f k), (List.range 6).map fun k => flagOf N (f k), !flagOf N (f 7)⟩
@[inherit_doc nrtlRef] def wilsonRef (N : ℕ) (f : ℕ → ℕ → ℕ → ℚ) : Model := ⟨(List.range 6).map fun k => mat N (f k), (List.range 6).map fun k => flagOf N (f k), true⟩
@[inherit_doc nrtlRef] def uniquacRef (N : ℕ) (f : ℕ → ℕ → ℕ → ℚ) : Model := ⟨(List.range 6).map fun k => mat N (f k), [], true⟩

/-- Optional matrices, each given as the one with coefficients `f k` or left out. -/
def given (N n : ℕ) (f : ℕ → ℕ → ℕ → ℚ) (g : ℕ → Bool) : List (Option Mat) := (List.range n).map fun k => if g k then some (mat N (f k)) else none

theorem given_sizes (N n : ℕ) (f : ℕ → ℕ → ℕ → ℚ) (g : ℕ → Bool) (hN : 0 < N) : sizesOk (given N n f g) = true := by
  apply sizesOk_mats N hN
  intro m hm
  unfold given at hm
  obtain ⟨k, _, hk⟩ := List.mem_map.1 hm
  split_ifs at hk
  exact ⟨f k, by simpa using hk.symm⟩

theorem given_pick (N n : ℕ) (f : ℕ → ℕ → ℕ → ℚ) (g : ℕ → Bool) (hz : ∀ k < n, g k = false → ∀ i < N, ∀ j < N, f k i j = 0) (k : ℕ) (hk : k < n) :
    ((given N n f g)[k]?).map (fun o => o.getD (zeros N)) = some (mat N (f k)) := by
  have e : (given N n f g)[k]? = some (if g k then some (mat N (f k)) else none) := by simp [given, hk]
  rw [e]
  simp only [Option.map_some, Option.some.injEq]
  cases hg : g k with
  | true => simp
  | false =>
    simp only [Bool.false_eq_true, if_false, Option.getD_none, zeros_eq, mat]
    apply List.map_congr_left
    intro i hi
    apply List.map_congr_left
    intro j hj
    exact (hz k hk hg i (List.mem_range.1 hi) j (List.mem_range.1 hj)).symm

theorem flags_ref (N n m : ℕ) (f : ℕ → ℕ → ℕ → ℚ) (h : n ≤ m) : flags N n ((List.range m).map fun k => mat N (f k)) = some ((List.range n).map fun k => flagOf N (f k)) := by
  unfold flags
  rw [← List.map_take, List.take_range, List.map_map, min_eq_left h]
  apply allSome_map
  intro k _
  exact scan_mat N (f k)

theorem nrtl_of_tuple (N : ℕ) (hN : 0 < N) (f : ℕ → ℕ → ℕ → ℚ) (g : ℕ → Bool) (hz : ∀ k < 8, g k = false → ∀ i < N, ∀ j < N, f k i j = 0) (s : Src) (hc : s.coeffs = none) (ha : s.alpha = none)
    (h1 : ¬ 1 < s.tuple.isSome.toNat + (s.single.any Option.isSome).toNat) (ht : s.tuple.getD s.single = given N 8 f g) : nrtl N s = .ok (nrtlRef N f) := by
  have hm : allSome ((List.range 8).map fun k => ((given N 8 f g)[k]?).map fun o => o.getD (zeros N)) = some ((List.range 8).map fun k => mat N (f k)) :=
    allSome_map _ _ _ (fun k hk => given_pick N 8 f g hz k (List.mem_range.1 hk))
  have e7 : ((List.range 8).map fun k => mat N (f k)).getD 7 [] = mat N (f 7) := rfl
  unfold nrtl
  simp only [hc, ha, Option.isSome_none, Bool.or_self, Bool.toNat_false, zero_add, if_neg h1, ht, given_sizes N 8 f g hN, if_true, hm, ofOption, Except.bind]
  rw [flags_ref N 6 8 f (by norm_num)]
  simp only [ofOption, e7, allZero_mat]
  rfl

/-- The coefficients of NRTL given as arrays by pair, as one tuple or one by one make the same model, with those coefficients; those left out count as zero. -/
theorem C125_nrtl_sources (N : ℕ) (hN : 0 < N) (f : ℕ → ℕ → ℕ → ℚ) (g : ℕ → Bool) (hz : ∀ k < 8, g k = false → ∀ i < N, ∀ j < N, f k i j = 0) :
    nrtl N { coeffs := some (stack N 0 6 f), alpha := some (stack N 6 2 f), single := List.replicate 8 none } = .ok (nrtlRef N f) ∧
    nrtl N { tuple := some (given N 8 f g), single := List.replicate 8 none } = .ok (nrtlRef N f) ∧
    nrtl N { single := given N 8 f g } = .ok (nrtlRef N f) := by
  refine ⟨?_, ?_, ?_⟩
  · have hm : allSome (((List.range 6).map (slice (stack N 0 6 f))) ++ (List.range 2).map (slice (stack N 6 2 f))) = some ((List.range 8).map fun k => mat N (f k)) := by
      have e : ((List.range 6).map (slice (stack N 0 6 f))) ++ (List.range 2).map (slice (stack N 6 2 f)) = (List.range 8).map fun k => some (mat N (f k)) := by
        have e6 : (List.range 6).map (slice (stack N 0 6 f)) = (List.range 6).map fun k => some (mat N (f k)) := by
          apply List.map_congr_left
          intro k hk
          rw [slice_stack N 0 6 k f (List.mem_range.1 hk), Nat.zero_add]
        have e2 : (List.range 2).map (slice (stack N 6 2 f)) = (List.range 2).map fun k => some (mat N (f (6 + k))) := by
          apply List.map_congr_left
          intro k hk
          rw [slice_stack N 6 2 k f (List.mem_range.1 hk)]
        rw [e6, e2]
        rfl
      rw [e]
      exact allSome_map _ _ _ (fun _ _ => rfl)
    have e7 : ((List.range 8).map fun k => mat N (f k)).getD 7 [] = mat N (f 7) := rfl
    unfold nrtl
    have hn : ¬ 1 < (((some (stack N 0 6 f)).isSome || (some (stack N 6 2 f)).isSome).toNat + (none : Option (List (Option Mat))).isSome.toNat + ((List.replicate 8 (none : Option Mat)).any Option.isSome).toNat) := by
      simp
    simp only [if_neg hn, hm, ofOption, Except.bind]
    rw [flags_ref N 6 8 f (by norm_num)]
    simp only [ofOption, e7, allZero_mat]
    rfl
  · exact nrtl_of_tuple N hN f g hz _ rfl rfl (by simp) rfl
  · refine nrtl_of_tuple N hN f g hz _ rfl rfl ?_ rfl
    simp only [Option.isSome_none, Bool.toNat_false, zero_add, not_lt]
    exact Bool.toNat_le _

example : nrtl 2 { single := [none, some [[0, 3], [4, 0]], none, none, none, none, some [[0, 1], [1, 0]], none] } =
    .ok ⟨[[[0, 0], [0, 0]], [[0, 3], [4, 0]], [[0, 0], [0, 0]], [[0, 0], [0, 0]], [[0, 0], [0, 0]], [[0, 0], [0, 0]], [[0, 1], [1, 0]], [[0, 0], [0, 0]]], [false, true, false, false, false, false], true⟩ := by decide +kernel

/-- The flags say what they should. -/
theorem C125_flags (N : ℕ) (f : ℕ → ℕ → ℕ → ℚ) : (∀ k < 6, (nrtlRef N f).nonzero[k]? = some true ↔ ∃ i < N, ∃ j < N, f k i j ≠ 0) ∧ ((nrtlRef N f).indep = true ↔ ∀ i < N, ∀ j < N, f 7 i j = 0) ∧
    (∀ k < 6, (wilsonRef N f).nonzero[k]? = some true ↔ ∃ i < N, ∃ j < N, f k i j ≠ 0) := by
  have h : ∀ k < 6, ((List.range 6).map fun k => flagOf N (f k))[k]? = some true ↔ ∃ i < N, ∃ j < N, f k i j ≠ 0 := by
    intro k hk
    rw [← flagOf_iff]
    simp [hk]
  refine ⟨h, ?_, h⟩
  simp only [nrtlRef, Bool.not_eq_true']
  rw [← Bool.not_eq_true, flagOf_iff]
  push Not
  rfl

/-- Wilson and UNIQUAC: the same for their three kinds of arguments. -/
theorem C125_other_sources (N : ℕ) (hN : 0 < N) (f : ℕ → ℕ → ℕ → ℚ) (g : ℕ → Bool) (hz : ∀ k < 6, g k = false → ∀ i < N, ∀ j < N, f k i j = 0) :
    (wilson N { coeffs := some (stack N 0 6 f), single := List.replicate 6 none } = .ok (wilsonRef N f) ∧ wilson N { tuple := some (given N 6 f g), single := List.replicate 6 none } = .ok (wilsonRef N f) ∧
      wilson N { single := given N 6 f g } = .ok (wilsonRef N f)) ∧
    (uniquac N { coeffs := some (stack N 0 6 f), single := List.replicate 6 none } = .ok (uniquacRef N f) ∧ uniquac N { tuple := some (given N 6 f g), single := List.replicate 6 none } = .ok (uniquacRef N f) ∧
      uniquac N { single := given N 6 f g } = .ok (uniquacRef N f)) := by
  have hs : allSome ((List.range 6).map (slice (stack N 0 6 f))) = some ((List.range 6).map fun k => mat N (f k)) := by
    apply allSome_map
    intro k hk
    rw [slice_stack N 0 6 k f (List.mem_range.1 hk), Nat.zero_add]
  have hp : padded N (given N 6 f g) = (List.range 6).map fun k => mat N (f k) := by
    unfold padded
    apply List.map_congr_left
    intro k hk
    have := given_pick N 6 f g hz k (List.mem_range.1 hk)
    rw [List.getD_eq_getElem?_getD]
    cases h : (given N 6 f g)[k]? with
    | none => rw [h] at this; simp at this
    | some o => rw [h] at this; simpa using this
  have hsz := given_sizes N 6 f g hN
  have hfl := flags_ref N 6 6 f le_rfl
  have hle : ¬ 1 < ((given N 6 f g).any Option.isSome).toNat := not_lt.2 (Bool.toNat_le _)
  refine ⟨⟨?_, ?_, ?_⟩, ?_, ?_, ?_⟩
  · simp only [wilson, hs, ofOption, Except.bind, hfl]; rfl
  · simp only [wilson, Option.getD_some, hsz, if_true, hp, Except.bind, hfl, ofOption]; rfl
  · simp only [wilson, Option.getD_none, hsz, if_true, hp, Except.bind, hfl, ofOption]; rfl
  · simp only [uniquac, hs, ofOption]
    rfl
  · simp only [uniquac, Option.getD_some, hsz, if_true, hp]
    rfl
  · simp only [uniquac, Option.isSome_none, Bool.toNat_false, zero_add, if_neg hle, Option.getD_none, hsz, if_true, hp]
    rfl

example : uniquac 2 { tuple := some [none, some [[0, 3], [4, 0]]], single := List.replicate 6 none } =
    .ok ⟨[[[0, 0], [0, 0]], [[0, 3], [4, 0]], [[0, 0], [0, 0]], [[0, 0], [0, 0]], [[0, 0], [0, 0]], [[0, 0], [0, 0]]], [], true⟩ := by decide +kernel

/-- NRTL and UNIQUAC refuse coefficients from two sources. -/
theorem C125_one_source (N : ℕ) (s : Src) (h : (s.coeffs ≠ none ∧ s.tuple ≠ none) ∨ (s.coeffs ≠ none ∧ s.single.any Option.isSome = true) ∨ (s.tuple ≠ none ∧ s.single.any Option.isSome = true)) :
    nrtl N s = .error "ValueError" ∧ uniquac N s = .error "ValueError" := by
  have hs : ∀ {α : Type} (o : Option α), o ≠ none → o.isSome = true := by
    intro α o ho
    cases o with
    | none => exact absurd rfl ho
    | some a => rfl
  have hn : 1 < s.coeffs.isSome.toNat + s.tuple.isSome.toNat + (s.single.any Option.isSome).toNat := by
    rcases h with ⟨a, b⟩ | ⟨a, b⟩ | ⟨a, b⟩
    · rw [hs _ a, hs _ b]; simp only [Bool.toNat_true]; omega
    · rw [hs _ a, b]; simp only [Bool.toNat_true]; omega
    · rw [hs _ a, b]; simp only [Bool.toNat_true]; omega
  have hn' : 1 < (s.coeffs.isSome || s.alpha.isSome).toNat + s.tuple.isSome.toNat + (s.single.any Option.isSome).toNat := by
    have : s.coeffs.isSome.toNat ≤ (s.coeffs.isSome || s.alpha.isSome).toNat := by cases s.coeffs.isSome <;> simp
    omega
  exact ⟨if_pos hn', if_pos hn⟩

example : nrtl 1 { coeffs := some [[[1]]], tuple := some [], single := [] } = .error "ValueError" := by decide +kernel

/-- Wilson does not: coefficients given one by one are dropped next to a tuple, and both next to an array. -/
theorem C125_precedence_fails :
    wilson 1 { tuple := some [some [[1]]], single := [none, some [[7]], none, none, none, none] } = wilson 1 { tuple := some [some [[1]]], single := List.replicate 6 none } ∧
    wilson 1 { coeffs := some [[[1, 2, 3, 4, 5, 6]]], tuple := some [some [[9]]], single := [none, some [[7]], none, none, none, none] } =
      wilson 1 { coeffs := some [[[1, 2, 3, 4, 5, 6]]], single := List.replicate 6 none } := by decide +kernel

/-- Tau coefficients without alpha coefficients are dropped: the model has no interaction at all. A tuple with fewer than eight entries fails, while the other models fill up theirs. -/
theorem C125_nrtl_fails :
    nrtl 2 { coeffs := some [[[0, 0, 0, 0, 0, 0], [0, 300, 0, 0, 0, 0]], [[0, 400, 0, 0, 0, 0], [0, 0, 0, 0, 0, 0]]], single := List.replicate 8 none } = nrtl 2 { single := List.replicate 8 none } ∧
    nrtl 1 { tuple := some (List.replicate 6 (some [[1]])), single := List.replicate 8 none } = .error "IndexError" ∧
    (wilson 1 { tuple := some [some [[1]]], single := List.replicate 6 none }).isOk = true ∧ (uniquac 1 { tuple := some [], single := List.replicate 6 none }).isOk = true := by decide +kernel

/-- Sizes are compared with each other but not with the number of components: coefficients for two components make a model of three, whose third row cannot be read; and those of three make a model of two. Only the first row is looked at. -/
theorem C125_size_fails :
    (wilson 3 { single := [some [[0, 1], [2, 0]], none, none, none, none, none] }).isOk = true ∧ entry [[0, 1], [2, 0]] 2 0 = none ∧
    (wilson 2 { single := [some [[0, 1, 5], [2, 0, 6], [7, 8, 0]], none, none, none, none, none] }).isOk = true ∧
    (uniquac 2 { single := [some [[0, 1], [2]], none, none, none, none, none] }).isOk = true ∧ entry [[0, 1], [2]] 1 1 = none := by decide +kernel

/-! ## Representation -/

/-- `NRTL.__repr__` (`nrtl.py` 737-746): the matrices of tau that are not zero, that of alpha, and its temperature dependence if there is one. -/
def nrtlRepr (m : Model) : Src :=
  { single := (List.range 8).map fun k =>
      if k < 6 then (if m.nonzero.getD k true then some (m.mats.getD k []) else none) else if k = 6 then some (m.mats.getD 6 []) else if m.indep then none else some (m.mats.getD 7 []) }

/-- `Wilson.__repr__` (`wilson.py` 847-854). -/
def wilsonRepr (m : Model) : Src := { single := (List.range 6).map fun k => if m.nonzero.getD k true then some (m.mats.getD k []) else none }

/-- `UNIQUAC.__repr__` (`uniquac.py` 664-668). -/
def uniquacRepr (m : Model) : Src := { tuple := some ((List.range 6).map fun k => some (m.mats.getD k [])), single := List.replicate 6 none }

theorem flag_false (N : ℕ) (f : ℕ → ℕ → ℚ) (h : flagOf N f = false) (i j : ℕ) (hi : i < N) (hj : j < N) : f i j = 0 := by
  by_contra hc
  have := (flagOf_iff N f).2 ⟨i, hi, j, hj, hc⟩
  rw [h] at this
  exact absurd this (by simp)

/-- The model built from the representation of a model is that model. -/
theorem C125_repr (N : ℕ) (hN : 0 < N) (f : ℕ → ℕ → ℕ → ℚ) : nrtl N (nrtlRepr (nrtlRef N f)) = .ok (nrtlRef N f) ∧ wilson N (wilsonRepr (wilsonRef N f)) = .ok (wilsonRef N f) ∧
    uniquac N (uniquacRepr (uniquacRef N f)) = .ok (uniquacRef N f) := by
  refine ⟨?_, ?_, ?_⟩
  · have e : nrtlRepr (nrtlRef N f) = { single := given N 8 f fun k => if k < 6 then flagOf N (f k) else if k = 6 then true else flagOf N (f 7) } := by
      unfold nrtlRepr given
      congr 1
      apply List.map_congr_left
      intro k hk
      have hk8 := List.mem_range.1 hk
      have h7 : (if (!flagOf N (f 7)) = true then none else some (mat N (f 7))) = if flagOf N (f 7) = true then some (mat N (f 7)) else none := by
        cases flagOf N (f 7) <;> rfl
      interval_cases k <;> first | rfl | exact h7
    rw [e]
    refine (C125_nrtl_sources N hN f _ ?_).2.2
    intro k hk hg i hi j hj
    split_ifs at hg with h6 h7
    · exact flag_false N (f k) hg i j hi hj
    · have : k = 7 := by omega
      subst this
      exact flag_false N (f 7) hg i j hi hj
  · have e : wilsonRepr (wilsonRef N f) = { single := given N 6 f fun k => flagOf N (f k) } := by
      rfl
    rw [e]
    exact (C125_other_sources N hN f _ (fun k _ hg i hi j hj => flag_false N (f k) hg i j hi hj)).1.2.2
  · have e : uniquacRepr (uniquacRef N f) = { tuple := some (given N 6 f fun _ => true), single := List.replicate 6 none } := by
      unfold uniquacRepr given
      congr 2
    rw [e]
    exact (C125_other_sources N hN f _ (fun k _ hg => by simp at hg)).2.2.1

example : nrtlRepr (nrtlRef 2 fun k i j => if k = 1 ∧ i ≠ j then 3 else 0) = { single := [none, some [[0, 3], [3, 0]], none, none, none, none, some [[0, 0], [0, 0]], none] } := by decide +kernel

/-! ## Missing parameters -/

/-- `missing_interaction_parameters` of NRTL and Wilson (`nrtl.py` 848-876, `wilson.py` 912-938), and with one matrix of `RegularSolution` (`regular_solution.py` 669-677). -/
def missing (N : ℕ) (mats : List Mat) : List (ℕ × ℕ) :=
  (List.range N).flatMap fun i => (List.range N).filterMap fun j => if i ≠ j ∧ mats.all (fun m => entry m i j = some 0) then some (i, j) else none

/-- A pair is reported as missing exactly if it is of two different components and all its coefficients are zero. -/
theorem C125_missing (N n : ℕ) (f : ℕ → ℕ → ℕ → ℚ) (i j : ℕ) : (i, j) ∈ missing N ((List.range n).map fun k => mat N (f k)) ↔ i < N ∧ j < N ∧ i ≠ j ∧ ∀ k < n, f k i j = 0 := by
  unfold missing
  simp only [List.mem_flatMap, List.mem_range, List.mem_filterMap]
  constructor
  · rintro ⟨a, ha, b, hb, h⟩
    split_ifs at h with hc
    simp only [Option.some.injEq, Prod.mk.injEq] at h
    obtain ⟨rfl, rfl⟩ := h
    refine ⟨ha, hb, hc.1, fun k hk => ?_⟩
    have := List.all_eq_true.1 hc.2 (mat N (f k)) (List.mem_map_of_mem (List.mem_range.2 hk))
    rw [decide_eq_true_eq, entry_mat N (f k) a b ha hb] at this
    simpa using this
  · rintro ⟨hi, hj, hne, h⟩
    refine ⟨i, hi, j, hj, ?_⟩
    rw [if_pos]
    refine ⟨hne, List.all_eq_true.2 fun m hm => ?_⟩
    obtain ⟨k, hk, rfl⟩ := List.mem_map.1 hm
    rw [decide_eq_true_eq, entry_mat N (f k) i j hi hj, h k (List.mem_range.1 hk)]

example : missing 2 [[[0, 0], [4, 0]], [[0, 0], [0, 0]]] = [(0, 1)] := by decide +kernel

/-! ## New states -/

/-- An object with its temperature, composition and stored values: those that depend on temperature only, and all others. -/
structure State (X V : Type) where
  T : ℚ
  xs : X
  tvals : String → Option V
  xvals : String → Option V

/-- The values that `to_T_xs` hands on at the same temperature (`nrtl.py` 781-817; `wilson.py` 890-909, `uniquac.py` 790-806 with their names). -/
def handed : List String := ["_taus", "_dtaus_dT", "_d2taus_dT2", "_d3taus_dT3", "_alphas", "_Gs", "_dGs_dT", "_d2Gs_dT2", "_d3Gs_dT3", "_lambdas", "_dlambdas_dT", "_d2lambdas_dT2", "_d3lambdas_dT3"]

/-- `to_T_xs` (`nrtl.py` 749-820, `wilson.py` 856-910, `uniquac.py` 754-807). -/
def toTxs {X V : Type} (o : State X V) (T : ℚ) (xs : X) : State X V := ⟨T, xs, fun n => if T = o.T ∧ n ∈ handed then o.tvals n else none, fun _ => none⟩

/-- A property that depends on temperature only, or on all: the stored value or a new one, which is stored. -/
def getT {X V : Type} (ev : String → ℚ → V) (o : State X V) (n : String) : V × State X V := match o.tvals n with
  | some v => (v, o)
  | none => (ev n o.T, { o with tvals := fun m => if m = n then some (ev n o.T) else o.tvals m })

@[inherit_doc getT] def getX {X V : Type} (ev : String → ℚ → X → V) (o : State X V) (n : String) : V × State X V := match o.xvals n with
  | some v => (v, o)
  | none => (ev n o.T o.xs, { o with xvals := fun m => if m = n then some (ev n o.T o.xs) else o.xvals m })

inductive Op (X : Type) where
  | getT (n : String)
  | getX (n : String)
  | new (T : ℚ) (xs : X)

def step {X V : Type} (et : String → ℚ → V) (ex : String → ℚ → X → V) (o : State X V) : Op X → State X V
  | .getT n => (getT et o n).2
  | .getX n => (getX ex o n).2
  | .new T xs => toTxs o T xs

/-- Stored values are those of the state of the object. -/
def Good {X V : Type} (et : String → ℚ → V) (ex : String → ℚ → X → V) (o : State X V) : Prop := (∀ n v, o.tvals n = some v → v = et n o.T) ∧ ∀ n v, o.xvals n = some v → v = ex n o.T o.xs

/-- After any sequence of properties read and of new states, from an object without stored values, every property is that of the temperature and the composition of the current object; and these are the ones last asked for. -/
theorem C125_states {X V : Type} (et : String → ℚ → V) (ex : String → ℚ → X → V) (o : State X V) (h : Good et ex o) (ops : List (Op X)) (n : String) :
    Good et ex (ops.foldl (step et ex) o) ∧ (getT et (ops.foldl (step et ex) o) n).1 = et n (ops.foldl (step et ex) o).T ∧
    (getX ex (ops.foldl (step et ex) o) n).1 = ex n (ops.foldl (step et ex) o).T (ops.foldl (step et ex) o).xs ∧ ∀ T xs, (step et ex (ops.foldl (step et ex) o) (.new T xs)).T = T ∧ (step et ex (ops.foldl (step et ex) o) (.new T xs)).xs = xs := by
  have hg : Good et ex (ops.foldl (step et ex) o) := by
    induction ops generalizing o with
    | nil => exact h
    | cons op ops ih =>
      rw [List.foldl_cons]
      apply ih
      cases op with
      | getT m =>
        simp only [step, getT]
        cases hm : o.tvals m with
        | some v => exact h
        | none =>
          refine ⟨fun k v hk => ?_, h.2⟩
          dsimp only at hk ⊢
          split_ifs at hk with hkm
          · subst hkm; simpa using hk.symm
          · exact h.1 k v hk
      | getX m =>
        simp only [step, getX]
        cases hm : o.xvals m with
        | some v => exact h
        | none =>
          refine ⟨h.1, fun k v hk => ?_⟩
          dsimp only at hk ⊢
          split_ifs at hk with hkm
          · subst hkm; simpa using hk.symm
          · exact h.2 k v hk
      | new T xs =>
        simp only [step, toTxs]
        refine ⟨fun k v hk => ?_, fun k v hk => by simp at hk⟩
        dsimp only at hk ⊢
        split_ifs at hk with hkm
        rw [hkm.1]
        exact h.1 k v hk
  generalize ops.foldl (step et ex) o = o' at hg ⊢
  refine ⟨hg, ?_, ?_, fun T xs => ⟨rfl, rfl⟩⟩
  · unfold getT
    cases hm : o'.tvals n with
    | some v => exact hg.1 n v hm
    | none => rfl
  · unfold getX
    cases hm : o'.xvals n with
    | some v => exact hg.2 n v hm
    | none => rfl

example : Good (fun _ T => T) (fun _ T x => T + x) (⟨300, (1 : ℚ), fun n => if n = "_taus" then some 300 else none, fun _ => none⟩ : State ℚ ℚ) := by
  refine ⟨fun n v h => ?_, fun n v h => by simp at h⟩
  dsimp only at h ⊢
  split_ifs at h
  simpa using h.symm

/-! ## Parameters of the DDBST -/

section ddbst

open Real

/-- `Wilson.from_DDBST` (`wilson.py` 667-675) as the coefficients of one pair, `Rg` being one without the conversion of units. -/
noncomputable def fromDDBST (Rg Vi Vj a b c d e f : ℝ) : InteractionExp.Coeffs 1 where
  A _ _ := log (Vj / Vi) - b / Rg
  B _ _ := -a / Rg
  C _ _ := -d / Rg
  D _ _ := -c / Rg
  E _ _ := -e / Rg
  F _ _ := -f / Rg

/-- The documented meaning of the parameters (`wilson.py` 610-616). -/
noncomputable def ddbst (Rg Vi Vj a b c d e f T : ℝ) : ℝ := Vj / Vi * exp (-(a + b * T + c * T ^ 2 + d * T * log T + e * T ^ 3 + f / T) / (Rg * T))

/-- The conversion is right with the last two parameters exchanged, and hence if both are zero. -/
theorem C125_ddbst_partial (Rg Vi Vj a b c d e f T : ℝ) (hR : Rg ≠ 0) (hi : 0 < Vi) (hj : 0 < Vj) (hT : 0 < T) : InteractionExp.lam (fromDDBST Rg Vi Vj a b c d f e) T 0 0 = ddbst Rg Vi Vj a b c d e f T ∧
    InteractionExp.lam (fromDDBST Rg Vi Vj a b c d 0 0) T 0 0 = ddbst Rg Vi Vj a b c d 0 0 T := by
  have key : ∀ e f : ℝ, InteractionExp.lam (fromDDBST Rg Vi Vj a b c d f e) T 0 0 = ddbst Rg Vi Vj a b c d e f T := by
    intro e f
    simp only [InteractionExp.lam, fromDDBST, ddbst]
    conv_rhs => rw [← exp_log (div_pos hj hi), ← exp_add]
    congr 1
    field_simp
    ring
  exact ⟨key e f, key 0 0⟩

example : (1.9872042586408316 : ℝ) ≠ 0 ∧ (0 : ℝ) < 74.04 ∧ (0 : ℝ) < 80.67 := by norm_num

/-- With the fifth or sixth parameter it is not: they are stored in each other's place. -/
theorem C125_ddbst_fails : InteractionExp.lam (fromDDBST 1 1 1 0 0 0 0 1 0) 2 0 0 ≠ ddbst 1 1 1 0 0 0 0 1 0 2 ∧ InteractionExp.lam (fromDDBST 1 1 1 0 0 0 0 0 1) 2 0 0 ≠ ddbst 1 1 1 0 0 0 0 0 1 2 := by
  constructor
  · intro h
    simp only [InteractionExp.lam, fromDDBST, ddbst] at h
    norm_num at h
  · intro h
    simp only [InteractionExp.lam, fromDDBST, ddbst] at h
    norm_num at h

/-- A component with itself has the parameter one if its own parameters are zero (`from_DDBST_as_matrix`, `wilson.py` 722-756). -/
theorem C125_ddbst_diagonal (Rg V T : ℝ) (hV : V ≠ 0) : InteractionExp.lam (fromDDBST Rg V V 0 0 0 0 0 0) T 0 0 = 1 := by
  simp [InteractionExp.lam, fromDDBST, div_self hV]

end ddbst

end Verif.ModelObj
