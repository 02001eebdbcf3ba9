import Verif.Phases.ExcessState
import Verif.Activity.NRTL

/-!
# Henry's law in `GibbsExcessLiquid` (`thermo/phases/gibbs_excess.py` 342-352, 499-552, 725-1048, 1177-1233)

C156: from the parameters given to the constants, their temperature derivatives and the stored lists.

`Henry_constants` and its derivatives belong to the `chemicals` package and follow its documentation (module
`ExcessState`). Lists of lists are checked for their index errors; array (numpy) variants select the same entries.
Correlation objects are functions of temperature; a call that raises is `none`.
-/

namespace Verif.HenryLaw

open Filter Topology Verif.ExcessState

variable {N : ℕ}

/-! ## Parameters -/

/-- `[[i[k] for i in l] for l in henry_abcdef]` (517-522); `none` is an index error. -/
noncomputable def slice (x : List (List (List ℝ))) (k : ℕ) : Option (List (List ℝ)) :=
  if ∀ l ∈ x, ∀ i ∈ l, k < i.length then some (x.map fun l => l.map fun i => i.getD k 0) else none

/-- `__init__` 504-550: one argument with all the parameters, or up to six matrices, those missing being zero. -/
noncomputable def parameters (zero : List (List ℝ)) (joint : Option (List (List (List ℝ))))
    (six : Fin 6 → Option (List (List ℝ))) : Except String (Fin 6 → List (List ℝ)) :=
  open Classical in
  let count := (if joint.isSome then 1 else 0) + (if ∃ k, (six k).isSome then 1 else 0)
  if count > 1 then .error "Input only one of henry_abcdef, or (henry_as...henry_fs)"
  else match joint with
    | some x => if ∀ k : Fin 6, (slice x k).isSome then .ok fun k => (slice x k).getD [] else .error "IndexError"
    | none => .ok fun k => (six k).getD zero

/-- `__init__` 499-501, 812. -/
def readMode (mode : String) : Except String Bool :=
  if ["solvents", "solvents_with_parameters"].contains mode then .ok (mode == "solvents_with_parameters")
  else .error "Henry's law model setting not recognized"

/-- `__init__` 345-347: the flags of the components, and whether there is any. -/
def components (N : ℕ) (given : Option (List Bool)) : List Bool × Bool :=
  let flags := given.getD (List.replicate N false)
  (flags, flags.any id)

/-- `__init__` 351 and 552. -/
def polyFit (all : Bool) (has : Bool) : Bool := all && !has
@[inherit_doc polyFit] def independent (ideal : Bool) (has : Bool) : Bool := ideal && !has

/-- A matrix as list of rows. -/
def rows (m : Fin N → Fin N → ℝ) : List (List ℝ) := List.ofFn fun i => List.ofFn fun j => m i j

/-- The six parameters of each pair together. -/
def joined (p : Fin 6 → Fin N → Fin N → ℝ) : List (List (List ℝ)) :=
  List.ofFn fun i => List.ofFn fun j => List.ofFn fun k => p k i j

/-- The documented form of `henry_abcdef` (178): "tuple[list[list[float]], 6]", six matrices. -/
def documented (p : Fin 6 → Fin N → Fin N → ℝ) : List (List (List ℝ)) := List.ofFn fun k => rows (p k)

theorem slice_ofFn {m n l : ℕ} (f : Fin m → Fin n → Fin l → ℝ) (k : Fin l) :
    slice (List.ofFn fun a => List.ofFn fun b => List.ofFn (f a b)) k
      = some (List.ofFn fun a => List.ofFn fun b => f a b k) := by
  unfold slice
  rw [if_pos]
  · congr 1
    rw [List.map_ofFn]
    congr 1
    funext a
    simp only [Function.comp]
    rw [List.map_ofFn]
    congr 1
    funext b
    simp [Function.comp]
  · intro r hr i hi
    simp only [List.mem_ofFn] at hr
    obtain ⟨a, rfl⟩ := hr
    simp only [List.mem_ofFn] at hi
    obtain ⟨b, rfl⟩ := hi
    simp

/-- **C156.** Parameters given together by pair are the parameters of the phase. -/
theorem C156_joint (zero : List (List ℝ)) (p : Fin 6 → Fin N → Fin N → ℝ) :
    parameters zero (some (joined p)) (fun _ => none) = .ok fun k => rows (p k) := by
  have h : ∀ k : Fin 6, slice (joined p) k = some (rows (p k)) := fun k => slice_ofFn (fun i j k => p k i j) k
  unfold parameters
  simp [h]

/-- **C156.** Parameters given as matrices are the parameters of the phase, and those not given are zero. -/
theorem C156_separate (p : Fin 6 → Option (Fin N → Fin N → ℝ)) :
    parameters (rows fun _ _ : Fin N => 0) none (fun k => (p k).map rows)
      = .ok fun k => rows ((p k).getD fun _ _ => 0) := by
  unfold parameters
  have : ¬ ((if (none : Option (List (List (List ℝ)))).isSome then 1 else 0)
      + (open Classical in if ∃ k, ((p k).map (rows (N := N))).isSome then 1 else 0)) > 1 := by
    split_ifs <;> simp_all
  simp only [this, if_false]
  congr 1
  funext k
  cases p k <;> rfl

/-- **C156.** Both forms at once are rejected, and the constructor rejects nothing else but lists that are too short. -/
theorem C156_exclusive (zero : List (List ℝ)) (joint : Option (List (List (List ℝ)))) (six : Fin 6 → Option (List (List ℝ))) :
    (parameters zero joint six = .error "Input only one of henry_abcdef, or (henry_as...henry_fs)"
      ↔ joint.isSome ∧ ∃ k, (six k).isSome)
      ∧ (parameters zero joint six = .error "IndexError"
        ↔ (∀ k, six k = none) ∧ ∃ x, joint = some x ∧ ∃ l ∈ x, ∃ i ∈ l, i.length < 6) := by
  classical
  have hslice : ∀ x : List (List (List ℝ)), (∀ k : Fin 6, (slice x k).isSome) ↔ ∀ l ∈ x, ∀ i ∈ l, 6 ≤ i.length := by
    intro x
    constructor
    · intro h l hl i hi
      have h5 := h 5
      unfold slice at h5
      split_ifs at h5 with hc
      · exact hc l hl i hi
      · simp at h5
    · intro h k
      unfold slice
      rw [if_pos]
      · rfl
      · intro l hl i hi
        exact lt_of_lt_of_le k.isLt (h l hl i hi)
  have hne : ("Input only one of henry_abcdef, or (henry_as...henry_fs)" = "IndexError") = False := by decide
  have hne' : ("IndexError" = "Input only one of henry_abcdef, or (henry_as...henry_fs)") = False := by decide
  unfold parameters
  cases joint with
  | none =>
    have : ¬ ((if (none : Option (List (List (List ℝ)))).isSome then 1 else 0)
        + (if ∃ k, (six k).isSome then 1 else 0)) > 1 := by split_ifs <;> simp_all
    simp only [if_neg this]
    simp
  | some x =>
    by_cases hs : ∃ k, (six k).isSome
    · have hn : ¬ ∀ k, six k = none := by
        obtain ⟨k, hk⟩ := hs
        intro h
        simp [h k] at hk
      simp [hs, hn]
    · have hn : ∀ k, six k = none := by
        intro k
        by_contra h
        exact hs ⟨k, Option.isSome_iff_ne_none.mpr h⟩
      simp only [hs, if_false, Option.isSome_some, if_true, gt_iff_lt, lt_irrefl, and_false, iff_false, add_zero]
      by_cases hx : ∀ k : Fin 6, (slice x k).isSome
      · rw [if_pos hx]
        refine ⟨by simp, ?_⟩
        rw [hslice] at hx
        constructor
        · intro h; cases h
        · rintro ⟨-, y, hy, l, hl, i, hi, hlt⟩
          obtain rfl : x = y := Option.some.inj hy
          exact absurd (hx l hl i hi) (by omega)
      · rw [if_neg hx]
        refine ⟨by simp, ?_⟩
        rw [hslice] at hx
        push Not at hx
        simp only [true_iff]
        obtain ⟨l, hl, i, hi, hlt⟩ := hx
        exact ⟨hn, x, rfl, l, hl, i, hi, hlt⟩

example : parameters (rows fun _ _ : Fin 2 => 0) (some []) (fun _ => some [])
    = .error "Input only one of henry_abcdef, or (henry_as...henry_fs)" :=
  (C156_exclusive _ _ _).1.mpr ⟨rfl, 0, rfl⟩

/-- **C156 fails.** The documented form, six matrices, raises with fewer than six components. -/
theorem C156_documented_fails (zero : List (List ℝ)) (p : Fin 6 → Fin N → Fin N → ℝ) (h0 : 0 < N) (h6 : N < 6) :
    parameters zero (some (documented p)) (fun _ => none) = .error "IndexError" := by
  rw [(C156_exclusive _ _ _).2]
  refine ⟨fun _ => rfl, documented p, rfl, rows (p 0), ?_, List.ofFn fun j => p 0 ⟨0, h0⟩ j, ?_, by simpa using h6⟩
  · simp only [documented, List.mem_ofFn]
    exact ⟨0, rfl⟩
  · simp only [rows, List.mem_ofFn]
    exact ⟨⟨0, h0⟩, rfl⟩

example : parameters (rows fun _ _ : Fin 2 => 0) (some (documented (N := 2) fun _ _ _ => 1)) (fun _ => none)
    = .error "IndexError" := C156_documented_fails _ _ (by decide) (by decide)

/-- **C156 fails.** With six components it is taken silently, and number, row and column change places: the parameter `k`
of the pair `(i, j)` is read from matrix `i`, row `j`, column `k`. -/
theorem C156_documented_six_fails (zero : List (List ℝ)) :
    (∀ p : Fin 6 → Fin 6 → Fin 6 → ℝ,
      parameters zero (some (documented p)) (fun _ => none) = .ok fun k => rows fun i j => p i j k)
      ∧ ∃ p : Fin 6 → Fin 6 → Fin 6 → ℝ,
        parameters zero (some (documented p)) (fun _ => none) ≠ .ok fun k => rows (p k) := by
  have key : ∀ p : Fin 6 → Fin 6 → Fin 6 → ℝ,
      parameters zero (some (documented p)) (fun _ => none) = .ok fun k => rows fun i j => p i j k := by
    intro p
    have h : ∀ k : Fin 6, slice (documented p) k = some (rows fun i j => p i j k) := fun k => slice_ofFn p k
    unfold parameters
    simp [h]
  refine ⟨key, fun k _ _ => if k = 0 then 1 else 0, ?_⟩
  rw [key]
  intro h
  have h1 := congrFun (Except.ok.inj h) 1
  unfold rows at h1
  have h2 := congrFun (List.ofFn_injective h1) 0
  have h3 := congrFun (List.ofFn_injective h2) 0
  simp at h3

/-- **C156.** Only the two names of the rule are accepted, and they differ. -/
theorem C156_mode (mode : String) : (readMode mode = .ok true ↔ mode = "solvents_with_parameters")
    ∧ (readMode mode = .ok false ↔ mode = "solvents")
    ∧ (readMode mode = .error "Henry's law model setting not recognized"
      ↔ mode ≠ "solvents" ∧ mode ≠ "solvents_with_parameters") := by
  unfold readMode
  by_cases h1 : mode = "solvents"
  · subst h1; simp
  · by_cases h2 : mode = "solvents_with_parameters"
    · subst h2; simp
    · simp [h1, h2]

/-- **C156.** A phase is free of the composition, and may use fitted vapor pressures, only without Henry's law components;
without the argument there are none. -/
theorem C156_components (N : ℕ) (given : Option (List Bool)) (all ideal : Bool) :
    (polyFit all (components N given).2 = true ↔ all = true ∧ ∀ b ∈ (components N given).1, b = false)
      ∧ (independent ideal (components N given).2 = true ↔ ideal = true ∧ ∀ b ∈ (components N given).1, b = false)
      ∧ (components N none).1.length = N ∧ (components N none).2 = false
      ∧ ∀ l, (components N (some l)).1 = l := by
  have h : ∀ l : List Bool, l.any id = false ↔ ∀ b ∈ l, b = false := by
    intro l
    simp [List.any_eq_false]
  unfold polyFit independent components
  refine ⟨?_, ?_, by simp, by simp, fun l => rfl⟩ <;>
  · simp only [Bool.and_eq_true, Bool.not_eq_true']
    rw [h]

example : (components 2 (some [true, false])).2 = true ∧ independent true (components 2 none).2 = true := by decide

/-! ## The matrix of logarithms -/

/-- `lnHenry_matrix` (725-754): `nrtl_taus` under another name (37). -/
noncomputable def lnHenry (p : Fin 6 → Fin N → Fin N → ℝ) (T : ℝ) : Fin N → Fin N → ℝ :=
  NRTL.taus T (p 0) (p 1) (p 2) (p 3) (p 4) (p 5)

/-- `dlnHenry_matrix_dT` (756-781). -/
noncomputable def dlnHenry (p : Fin 6 → Fin N → Fin N → ℝ) (T : ℝ) : Fin N → Fin N → ℝ :=
  NRTL.dtaus_dT T (p 1) (p 2) (p 3) (p 4) (p 5)

/-- `d2lnHenry_matrix_dT2` (783-808). -/
noncomputable def d2lnHenry (p : Fin 6 → Fin N → Fin N → ℝ) (T : ℝ) : Fin N → Fin N → ℝ :=
  NRTL.d2taus_dT2 T (p 1) (p 2) (p 4) (p 5)

/-- **C156.** The matrix follows the documented formula, and the other two are its derivatives. -/
theorem C156_matrix (p : Fin 6 → Fin N → Fin N → ℝ) {T : ℝ} (hT : T ≠ 0) (i j : Fin N) :
    lnHenry p T i j = p 0 i j + p 1 i j / T + p 2 i j * Real.log T + p 3 i j * T + p 4 i j / T ^ 2 + p 5 i j * T ^ 2
      ∧ HasDerivAt (fun T => lnHenry p T i j) (dlnHenry p T i j) T
      ∧ HasDerivAt (fun T => dlnHenry p T i j) (d2lnHenry p T i j) T := by
  obtain ⟨h1, h2, -⟩ := NRTL.C25_taus (p 0) (p 1) (p 2) (p 3) (p 4) (p 5) hT i j
  refine ⟨?_, h1, h2⟩
  unfold lnHenry NRTL.taus
  dsimp only
  field_simp

example : lnHenry (fun _ _ _ => 1 : Fin 6 → Fin 2 → Fin 2 → ℝ) 1 0 1 = 5 := by
  rw [(C156_matrix _ one_ne_zero 0 1).1]; norm_num

/-! ## Henry's law constants -/

/-- Average of row `i` over a set of solvents. -/
noncomputable def mean (S : Finset (Fin N)) (zs : Fin N → ℝ) (m : Fin N → ℝ) : ℝ := (∑ j ∈ S, zs j * m j) / ∑ j ∈ S, zs j

/-- `d2Henry_constants_dT2` of the `chemicals` package as documented (828-836). -/
noncomputable def d2Henry (lnH dlnH d2lnH : Fin N → Fin N → ℝ) (zs : Fin N → ℝ) (isH : Fin N → Bool) (skip : Bool)
    (i : Fin N) : ℝ :=
  let S := solvents lnH isH skip i
  henry lnH zs isH skip i * ((mean S zs (dlnH i)) ^ 2 + mean S zs (d2lnH i))

/-- `d2Psats_dT2` (1041-1048) and `d2Psats_dT2_over_Psats` (1225-1233). -/
noncomputable def d2Psats (d2corr : Fin N → ℝ) (lnH dlnH d2lnH : Fin N → Fin N → ℝ) (zs : Fin N → ℝ) (isH : Fin N → Bool)
    (skip : Bool) (i : Fin N) : ℝ := if isH i then d2Henry lnH dlnH d2lnH zs isH skip i else d2corr i
@[inherit_doc d2Psats] noncomputable def r2Psats (corr d2corr : Fin N → ℝ) (lnH dlnH d2lnH : Fin N → Fin N → ℝ)
    (zs : Fin N → ℝ) (isH : Fin N → Bool) (skip : Bool) (i : Fin N) : ℝ :=
  if isH i then d2Henry lnH dlnH d2lnH zs isH skip i / henry lnH zs isH skip i else d2corr i / corr i

/-- The solvents counted for component `i` do not change near `T`: either all count, or each has a logarithm other than
zero at `T` or no parameters at all. -/
def Steady (p : Fin 6 → Fin N → Fin N → ℝ) (isH : Fin N → Bool) (skip : Bool) (i : Fin N) (T : ℝ) : Prop :=
  skip = false ∨ ∀ j, isH j = false → lnHenry p T i j ≠ 0 ∨ ∀ k, p k i j = 0

theorem lnHenry_zero {p : Fin 6 → Fin N → Fin N → ℝ} {i j : Fin N} (h : ∀ k, p k i j = 0) (T : ℝ) : lnHenry p T i j = 0 := by
  simp [lnHenry, NRTL.taus, h]

theorem steady_near {p : Fin 6 → Fin N → Fin N → ℝ} {isH : Fin N → Bool} {skip : Bool} {i : Fin N} {T : ℝ} (hT : T ≠ 0)
    (h : Steady p isH skip i T) :
    ∀ᶠ t in 𝓝 T, solvents (lnHenry p t) isH skip i = solvents (lnHenry p T) isH skip i := by
  have key : ∀ᶠ t in 𝓝 T, ∀ j, (isH j = false ∧ (skip = true → lnHenry p t i j ≠ 0))
      ↔ (isH j = false ∧ (skip = true → lnHenry p T i j ≠ 0)) := by
    rw [eventually_all]
    intro j
    cases hj : isH j with
    | true => simp
    | false =>
      rcases h with h | h
      · subst h; simp
      · rcases h j hj with h | h
        · have hc := (C156_matrix p hT i j).2.1.continuousAt
          filter_upwards [hc.eventually_ne h] with t ht
          simp [ht, h]
        · simp [lnHenry_zero h]
  filter_upwards [key] with t ht
  ext j
  simp only [solvents, Finset.mem_filter, Finset.mem_univ, true_and]
  exact ht j

theorem mean_deriv (S : Finset (Fin N)) (zs : Fin N → ℝ) {m : Fin N → ℝ → ℝ} {m' : Fin N → ℝ} {T : ℝ}
    (h : ∀ j, HasDerivAt (m j) (m' j) T) : HasDerivAt (fun t => mean S zs (m · t)) (mean S zs m') T :=
  (HasDerivAt.fun_sum (u := S) fun j _ => (h j).const_mul (zs j)).div_const _

/-- **C156.** The first and second derivatives of vapor pressures and Henry's law constants are derivatives with respect to
temperature, at every temperature near which the same solvents count. -/
theorem C156_derivatives {corr dcorr d2corr : Fin N → ℝ → ℝ} (p : Fin 6 → Fin N → Fin N → ℝ) (zs : Fin N → ℝ)
    (isH : Fin N → Bool) (skip : Bool) (i : Fin N) {T : ℝ} (hT : T ≠ 0) (hs : Steady p isH skip i T)
    (h1 : HasDerivAt (corr i) (dcorr i T) T) (h2 : HasDerivAt (dcorr i) (d2corr i T) T) :
    HasDerivAt (fun t => psats (corr · t) (lnHenry p t) zs isH skip i)
        (dPsats (dcorr · T) (lnHenry p T) (dlnHenry p T) zs isH skip i) T
      ∧ HasDerivAt (fun t => dPsats (dcorr · t) (lnHenry p t) (dlnHenry p t) zs isH skip i)
        (d2Psats (d2corr · T) (lnHenry p T) (dlnHenry p T) (d2lnHenry p T) zs isH skip i) T := by
  unfold psats dPsats d2Psats
  cases hi : isH i with
  | false => exact ⟨by simpa using h1, by simpa using h2⟩
  | true =>
    simp only [if_true]
    have near := steady_near hT hs
    have a1 := mean_deriv (solvents (lnHenry p T) isH skip i) zs fun j => (C156_matrix p hT i j).2.1
    have a2 := mean_deriv (solvents (lnHenry p T) isH skip i) zs fun j => (C156_matrix p hT i j).2.2
    constructor
    · refine HasDerivAt.congr_of_eventuallyEq (a1.exp) ?_
      filter_upwards [near] with t ht
      unfold henry mean
      rw [ht]
    · refine HasDerivAt.congr_of_eventuallyEq ((a1.exp.mul a2).congr_deriv ?_) ?_
      · unfold d2Henry henry
        dsimp only
        unfold mean
        ring
      · filter_upwards [near] with t ht
        unfold dHenry henry mean
        rw [ht]
        rfl

example : Steady (fun k i j => if k = 0 ∧ i = 0 ∧ j = 1 then 1 else 0 : Fin 6 → Fin 3 → Fin 3 → ℝ) ![true, false, false] true 0 300 := by
  refine Or.inr fun j _ => ?_
  by_cases hj : j = 1
  · left
    subst hj
    rw [(C156_matrix _ (by norm_num) 0 1).1]
    have h2 : (2 : Fin 6) ≠ 0 := by decide
    have h3 : (3 : Fin 6) ≠ 0 := by decide
    have h4 : (4 : Fin 6) ≠ 0 := by decide
    have h5 : (5 : Fin 6) ≠ 0 := by decide
    simp [h2, h3, h4, h5]
  · right
    intro k
    simp [hj]

/-- **C156.** The ratio of the second derivative to the value is that ratio. -/
theorem C156_ratio (corr d2corr : Fin N → ℝ) (lnH dlnH d2lnH : Fin N → Fin N → ℝ) (zs : Fin N → ℝ) (isH : Fin N → Bool)
    (skip : Bool) (i : Fin N) : r2Psats corr d2corr lnH dlnH d2lnH zs isH skip i
      = d2Psats d2corr lnH dlnH d2lnH zs isH skip i / psats corr lnH zs isH skip i := by
  unfold r2Psats d2Psats psats
  cases isH i <;> rfl

/-- **C156.** The constant in a mixture lies between the least and the greatest of the constants in its solvents. -/
theorem C156_between {lnH : Fin N → Fin N → ℝ} {zs : Fin N → ℝ} {isH : Fin N → Bool} {skip : Bool} {i : Fin N} {lo hi : ℝ}
    (hz : ∀ j ∈ solvents lnH isH skip i, 0 ≤ zs j) (hs : 0 < ∑ j ∈ solvents lnH isH skip i, zs j)
    (hlo : ∀ j ∈ solvents lnH isH skip i, lo ≤ Real.exp (lnH i j))
    (hhi : ∀ j ∈ solvents lnH isH skip i, Real.exp (lnH i j) ≤ hi) :
    lo ≤ henry lnH zs isH skip i ∧ henry lnH zs isH skip i ≤ hi := by
  unfold henry
  have hne : (solvents lnH isH skip i).Nonempty := by
    by_contra h
    rw [Finset.not_nonempty_iff_eq_empty] at h
    simp [h] at hs
  obtain ⟨j, hj⟩ := hne
  have hhi0 : 0 < hi := lt_of_lt_of_le (Real.exp_pos _) (hhi j hj)
  constructor
  · by_cases h0 : lo ≤ 0
    · exact h0.trans (Real.exp_pos _).le
    · push Not at h0
      rw [← Real.exp_log h0, Real.exp_le_exp, le_div_iff₀ hs, Finset.mul_sum]
      refine Finset.sum_le_sum fun j hj => ?_
      rw [mul_comm]
      refine mul_le_mul_of_nonneg_left ?_ (hz j hj)
      rw [← Real.log_exp (lnH i j)]
      exact Real.log_le_log h0 (hlo j hj)
  · rw [← Real.exp_log hhi0, Real.exp_le_exp, div_le_iff₀ hs, Finset.mul_sum]
    refine Finset.sum_le_sum fun j hj => ?_
    rw [mul_comm (Real.log hi)]
    refine mul_le_mul_of_nonneg_left ?_ (hz j hj)
    rw [← Real.log_exp (lnH i j)]
    exact Real.log_le_log (Real.exp_pos _) (hhi j hj)

/-- **C156.** In a single solvent it is the constant in this solvent, whatever the amount of solute. -/
theorem C156_one_solvent {lnH : Fin N → Fin N → ℝ} {zs : Fin N → ℝ} {isH : Fin N → Bool} {skip : Bool} {i s : Fin N}
    (hs : isH s = false) (h : ∀ j, isH j = false → j = s) (hz : zs s ≠ 0) (hl : lnH i s ≠ 0 ∨ skip = false) :
    henry lnH zs isH skip i = Real.exp (lnH i s) := by
  have : solvents lnH isH skip i = {s} := by
    ext j
    simp only [solvents, Finset.mem_filter, Finset.mem_univ, true_and, Finset.mem_singleton]
    constructor
    · exact fun hj => h j hj.1
    · rintro rfl
      refine ⟨hs, fun hk => ?_⟩
      rcases hl with hl | hl
      · exact hl
      · simp [hl] at hk
  unfold henry
  rw [this, Finset.sum_singleton, Finset.sum_singleton]
  congr 1
  field_simp

example : henry (fun _ _ : Fin 2 => 20) ![1 / 10, 9 / 10] ![true, false] true 0 = Real.exp 20 :=
  C156_one_solvent (s := 1) rfl (by decide) (by norm_num) (Or.inl (by norm_num))

/-- **C156.** The constants depend on the proportions of the solvents only. -/
theorem C156_proportions {lnH : Fin N → Fin N → ℝ} {zs ws : Fin N → ℝ} {isH : Fin N → Bool} {skip : Bool} {i : Fin N} {c : ℝ}
    (hc : c ≠ 0) (h : ∀ j, isH j = false → ws j = c * zs j) : henry lnH ws isH skip i = henry lnH zs isH skip i := by
  unfold henry
  have h1 : ∑ j ∈ solvents lnH isH skip i, ws j = c * ∑ j ∈ solvents lnH isH skip i, zs j := by
    rw [Finset.mul_sum]
    refine Finset.sum_congr rfl fun j hj => ?_
    simp only [solvents, Finset.mem_filter] at hj
    exact h j hj.2.1
  have h2 : ∑ j ∈ solvents lnH isH skip i, ws j * lnH i j = c * ∑ j ∈ solvents lnH isH skip i, zs j * lnH i j := by
    rw [Finset.mul_sum]
    refine Finset.sum_congr rfl fun j hj => ?_
    simp only [solvents, Finset.mem_filter] at hj
    rw [h j hj.2.1]
    ring
  rw [h1, h2, mul_div_mul_left _ _ hc]

example : ∀ j, ![true, false, false] j = false → (![(1 : ℝ) / 2, 1 / 4, 1 / 4] : Fin 3 → ℝ) j = 1 / 2 * ![0, 1 / 2, 1 / 2] j := by
  intro j hj
  fin_cases j
  · simp at hj
  · norm_num
  · norm_num

/-- **C156.** The two rules agree when every solvent has parameters. -/
theorem C156_rules {lnH : Fin N → Fin N → ℝ} {zs : Fin N → ℝ} {isH : Fin N → Bool} {i : Fin N}
    (h : ∀ j, isH j = false → lnH i j ≠ 0) : henry lnH zs isH true i = henry lnH zs isH false i := by
  have : solvents lnH isH true i = solvents lnH isH false i := by
    ext j
    simp only [solvents, Finset.mem_filter, Finset.mem_univ, true_and]
    exact ⟨fun hj => ⟨hj.1, by simp⟩, fun hj => ⟨hj.1, fun _ => h j hj.1⟩⟩
  unfold henry
  rw [this]

/-- **C156 fails.** Under the rule `solvents` a solvent without parameters counts as one with the constant 1 Pa: half of
such a solvent takes the root of the constant of the other. -/
theorem C156_missing_fails : ∃ (lnH : Fin 3 → Fin 3 → ℝ) (zs : Fin 3 → ℝ) (isH : Fin 3 → Bool),
    lnH 0 2 = 0 ∧ henry lnH zs isH true 0 = Real.exp (lnH 0 1)
      ∧ henry lnH zs isH false 0 = Real.sqrt (Real.exp (lnH 0 1)) ∧ 1 < Real.exp (lnH 0 1) := by
  classical
  refine ⟨fun _ j => if j = 1 then 20 else 0, fun _ => 1 / 3, ![true, false, false], by simp, ?_, ?_, by simp⟩
  · unfold henry
    have : solvents (fun _ j : Fin 3 => if j = 1 then (20 : ℝ) else 0) ![true, false, false] true 0 = {1} := by
      ext j
      fin_cases j <;> simp [solvents]
    rw [this, Finset.sum_singleton, Finset.sum_singleton]
    norm_num
  · unfold henry
    have : solvents (fun _ j : Fin 3 => if j = 1 then (20 : ℝ) else 0) ![true, false, false] false 0 = {1, 2} := by
      ext j
      fin_cases j <;> simp [solvents]
    rw [this, Finset.sum_pair (by decide), Finset.sum_pair (by decide), eq_comm,
      Real.sqrt_eq_iff_mul_self_eq (Real.exp_pos _).le (Real.exp_pos _).le, ← Real.exp_add]
    have h2 : (2 : Fin 3) ≠ 1 := by decide
    simp only [h2, if_true, if_false]
    norm_num

/-! ## Stored lists -/

/-- Values before the first that raises. -/
def done : List (Option ℝ) → List ℝ
  | some v :: l => v :: done l
  | _ => []

/-- Replacing the entries of Henry's law components. -/
def replaced (vals hs : List ℝ) (isH : List Bool) : List ℝ :=
  List.zipWith (fun v (h : ℝ × Bool) => if h.2 then h.1 else v) vals (hs.zip isH)

/-- `Psats` (890-925) of a phase with Henry's law components: the list is stored empty and then filled. Second: what is
stored after the call. -/
def askPsats (stored : Option (List ℝ)) (corr : List (Option ℝ)) (hs : Option (List ℝ)) (isH : List Bool) :
    Option (List ℝ) × Option (List ℝ) :=
  match stored with
  | some l => (some l, some l)
  | none =>
    if corr.all Option.isSome then
      match hs with
      | none => (none, some (done corr))
      | some h => (some (replaced (done corr) h isH), some (replaced (done corr) h isH))
    else (none, some (done corr))

/-- `d2Psats_dT2` (998-1048): stored empty, then whole, then changed. -/
def askSecond (stored : Option (List ℝ)) (corr : List (Option ℝ)) (hs : Option (List ℝ)) (isH : List Bool) :
    Option (List ℝ) × Option (List ℝ) :=
  match stored with
  | some l => (some l, some l)
  | none =>
    if corr.all Option.isSome then
      match hs with
      | none => (none, some (done corr))
      | some h => (some (replaced (done corr) h isH), some (replaced (done corr) h isH))
    else (none, some [])

/-- `dPsats_dT_over_Psats` (1177-1186) and `d2Psats_dT2_over_Psats` (1225-1233): stored last. -/
def askRatio (stored : Option (List ℝ)) (corr : List (Option ℝ)) (hs : Option (List ℝ)) (isH : List Bool) :
    Option (List ℝ) × Option (List ℝ) :=
  match stored with
  | some l => (some l, some l)
  | none =>
    if corr.all Option.isSome then
      match hs with
      | none => (none, none)
      | some h => (some (replaced (done corr) h isH), some (replaced (done corr) h isH))
    else (none, none)

theorem done_some : ∀ vals : List ℝ, done (vals.map some) = vals
  | [] => rfl
  | v :: l => by simp [done, done_some l]

theorem replaced_get : ∀ (vals hs : List ℝ) (isH : List Bool), hs.length = vals.length → isH.length = vals.length →
    (replaced vals hs isH).length = vals.length
      ∧ (∀ i : ℕ, isH[i]? = some true → (replaced vals hs isH)[i]? = hs[i]?)
      ∧ ∀ i : ℕ, isH[i]? = some false → (replaced vals hs isH)[i]? = vals[i]? := by
  intro vals
  induction vals with
  | nil =>
    intro hs isH h1 h2
    simp only [List.length_nil, List.length_eq_zero_iff] at h1 h2
    subst h1 h2
    simp [replaced]
  | cons v vals ih =>
    intro hs isH h1 h2
    match hs, isH, h1, h2 with
    | h :: hs, b :: isH, h1, h2 =>
      obtain ⟨a1, a2, a3⟩ := ih hs isH (by simpa using h1) (by simpa using h2)
      have e : replaced (v :: vals) (h :: hs) (b :: isH) = (if b then h else v) :: replaced vals hs isH := rfl
      rw [e]
      refine ⟨by simp [a1], ?_, ?_⟩
      · intro i hi
        cases i with
        | zero => simp only [List.getElem?_cons_zero, Option.some.injEq] at hi ⊢; simp [hi]
        | succ i => simpa using a2 i (by simpa using hi)
      · intro i hi
        cases i with
        | zero => simp only [List.getElem?_cons_zero, Option.some.injEq] at hi ⊢; simp [hi]
        | succ i => simpa using a3 i (by simpa using hi)

/-- **C156.** When nothing raises, the three lists are as wanted, and asked again they are the same. -/
theorem C156_stored {vals hs : List ℝ} {isH : List Bool} (h1 : hs.length = vals.length) (h2 : isH.length = vals.length) :
    ∀ f ∈ [askPsats, askSecond, askRatio], ∃ out, (f none (vals.map some) (some hs) isH).1 = some out
      ∧ out.length = vals.length ∧ (∀ i : ℕ, isH[i]? = some true → out[i]? = hs[i]?)
      ∧ (∀ i : ℕ, isH[i]? = some false → out[i]? = vals[i]?)
      ∧ ∀ corr' hs', (f (f none (vals.map some) (some hs) isH).2 corr' hs' isH).1 = some out := by
  have hall : (vals.map some).all Option.isSome = true := by simp
  obtain ⟨a1, a2, a3⟩ := replaced_get vals hs isH h1 h2
  intro f hf
  refine ⟨replaced vals hs isH, ?_, a1, a2, a3, ?_⟩
  · simp only [List.mem_cons, List.not_mem_nil, or_false] at hf
    rcases hf with rfl | rfl | rfl <;> simp [askPsats, askSecond, askRatio, hall, done_some]
  · intro corr' hs'
    simp only [List.mem_cons, List.not_mem_nil, or_false] at hf
    rcases hf with rfl | rfl | rfl <;> simp [askPsats, askSecond, askRatio, hall, done_some]

example : (askPsats none [some 1, some 2] (some [10, 0]) [true, false]).1 = some [10, 2] := by
  simp [askPsats, done, replaced]

/-- **C156.** A failed call for a ratio is repeated. -/
theorem C156_retry_ratio (corr corr' : List (Option ℝ)) (hs hs' : Option (List ℝ)) (isH : List Bool)
    (h : (askRatio none corr hs isH).1 = none) :
    askRatio (askRatio none corr hs isH).2 corr' hs' isH = askRatio none corr' hs' isH := by
  have : (askRatio none corr hs isH).2 = none := by
    unfold askRatio at h ⊢
    dsimp only at h ⊢
    split_ifs at h ⊢ with hc
    · cases hs with
      | none => rfl
      | some x => simp at h
    · rfl
  rw [this]

example : (askRatio none [some 1, none] (some [10, 0]) [true, false]).1 = none := by simp [askRatio]

/-- **C156 fails.** A failed call for vapor pressures is not: asked again, the phase returns the part of the list that was
filled, without an exception; if only the Henry's law constants had failed, the correlations in their place. -/
theorem C156_retry_fails (corr : List (Option ℝ)) (hs : Option (List ℝ)) (isH : List Bool) :
    ((askPsats none corr hs isH).1 = none → ∀ corr' hs',
      (askPsats (askPsats none corr hs isH).2 corr' hs' isH).1 = some (done corr))
      ∧ ((∃ c ∈ corr, c = none) → (askSecond none corr hs isH).1 = none ∧ ∀ corr' hs',
        (askSecond (askSecond none corr hs isH).2 corr' hs' isH).1 = some [])
      ∧ ∀ vals : List ℝ, (askPsats none (vals.map some) none isH).1 = none ∧
        ∀ corr' hs', (askPsats (askPsats none (vals.map some) none isH).2 corr' hs' isH).1 = some vals := by
  refine ⟨?_, ?_, ?_⟩
  · intro h corr' hs'
    have : (askPsats none corr hs isH).2 = some (done corr) := by
      unfold askPsats at h ⊢
      dsimp only at h ⊢
      split_ifs at h ⊢ with hc
      · cases hs with
        | none => rfl
        | some x => simp at h
      · rfl
    rw [this]
    rfl
  · rintro ⟨c, hc, rfl⟩
    have hall : corr.all Option.isSome = false := by
      rw [List.all_eq_false]
      exact ⟨none, hc, by simp⟩
    refine ⟨by simp [askSecond, hall], fun corr' hs' => ?_⟩
    have : (askSecond none corr hs isH).2 = some [] := by simp [askSecond, hall]
    rw [this]
    rfl
  · intro vals
    have hall : (vals.map some).all Option.isSome = true := by simp
    have : (askPsats none (vals.map some) none isH).2 = some vals := by simp [askPsats, hall, done_some]
    refine ⟨by simp [askPsats, hall], fun corr' hs' => ?_⟩
    rw [this]
    rfl

example : (askPsats none [some 1, none] (some [10, 0]) [true, false]).1 = none := by simp [askPsats]

end Verif.HenryLaw
