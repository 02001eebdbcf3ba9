import Verif.Activity.RedlichKister
import Verif.TDep.Model
import Mathlib.Analysis.SpecialFunctions.Log.Basic
import Mathlib.Algebra.Order.BigOperators.Ring.Finset

/-!
# Mixture properties (`thermo/utils/mixture_property.py`)

* C16: the decision logic of `mixture_property`.
* C48: the call memo of `MixtureProperty.__call__`.
* C49: the linear and logarithmic mixing rules and the excess property.
* C50: the Redlich–Kister excess correlation of a mixture property.
-/

namespace Verif.Mixture

open Finset
open Verif.TDep (Res)

/-! ## C16: decision logic -/

/-- The flags of the class (mixture_property.py 42-62). -/
structure Flags where
  skipMethod : Bool
  skipProp : Bool
  strict : Bool
  pmin : ℚ
  pmax : ℚ

/-- A call may raise (`none`) or return an optional number. -/
abbrev Calc := Option (Option ℚ)

/-- `test_property_validity(prop)` (419-441): comparing `None` with a number raises. -/
def testProp (fl : Flags) (v : Option ℚ) : Option Bool :=
  v.map fun x => if x < fl.pmin then false else if x > fl.pmax then false else true

/-- Lines 481-489 of `mixture_property`. -/
def afterGuard (fl : Flags) (c : Calc) : Res :=
  match c with
  | none => if fl.strict then .raised else .none
  | some v =>
    if fl.skipProp then (match v with | some x => .val x | none => .none)
    else match testProp fl v with
      | none => .raised
      | some true => (match v with | some x => .val x | none => .none)
      | some false => if fl.strict then .raised else .none

/-- `mixture_property(T, P, zs, ws)` (444-491) as a function of what `test_method_validity` would answer
(`none`: it raises) and of what `calculate` gives. The guard is line 480,
`if not self.skip_method_validity_check or self.test_method_validity(...)`. -/
def mixtureProperty (fl : Flags) (valid : Option Bool) (c : Calc) : Res :=
  if !fl.skipMethod then afterGuard fl c
  else match valid with
    | none => .raised
    | some true => afterGuard fl c
    | some false => if fl.strict then .raised else .none

theorem afterGuard_val {fl : Flags} {c : Calc} {v : ℚ} (h : afterGuard fl c = .val v) :
    c = some (some v) ∧ (fl.skipProp = true ∨ (fl.pmin ≤ v ∧ v ≤ fl.pmax)) := by
  unfold afterGuard at h
  cases c with
  | none => dsimp only at h; split at h <;> cases h
  | some w =>
    dsimp only at h
    by_cases hs : fl.skipProp = true
    · rw [if_pos hs] at h
      cases w with
      | none => cases h
      | some x => cases h; exact ⟨rfl, .inl hs⟩
    · rw [if_neg hs] at h
      cases w with
      | none => cases h
      | some x =>
        simp only [testProp, Option.map_some] at h
        by_cases h1 : x < fl.pmin
        · rw [if_pos h1] at h; dsimp only at h; split at h <;> cases h
        · rw [if_neg h1] at h
          by_cases h2 : x > fl.pmax
          · rw [if_pos h2] at h; dsimp only at h; split at h <;> cases h
          · rw [if_neg h2] at h; cases h
            exact ⟨rfl, .inr ⟨not_lt.1 h1, not_lt.1 h2⟩⟩

/-- **C16 (partial).** A returned value is the one the selected method computed, it is within the
plausibility bounds unless that check is switched off, and — when `skip_method_validity_check` is *set* —
the method's validity test accepted the conditions. Missing: the same for the default setting, where the
validity test is never consulted (`C16_default_skips_check`). -/
theorem C16_returned_value_partial (fl : Flags) (valid : Option Bool) (c : Calc) (v : ℚ)
    (h : mixtureProperty fl valid c = .val v) :
    c = some (some v) ∧ (fl.skipProp = true ∨ (fl.pmin ≤ v ∧ v ≤ fl.pmax)) ∧
      (fl.skipMethod = true → valid = some true) := by
  unfold mixtureProperty at h
  by_cases hs : fl.skipMethod = true
  · simp only [hs, Bool.not_true, Bool.false_eq_true, if_false] at h
    cases valid with
    | none => cases h
    | some b =>
      cases b with
      | false => dsimp only at h; split at h <;> cases h
      | true => obtain ⟨h1, h2⟩ := afterGuard_val h; exact ⟨h1, h2, fun _ => rfl⟩
  · have hs' : fl.skipMethod = false := by simpa using hs
    simp only [hs', Bool.not_false, if_true] at h
    obtain ⟨h1, h2⟩ := afterGuard_val h
    exact ⟨h1, h2, fun hh => absurd hh hs⟩

example : mixtureProperty ⟨true, false, false, 0, 10⟩ (some true) (some (some 5)) = .val 5 := by
  decide +kernel

/-- **C16, the claim fails** with the default flags: the answer does not depend on the validity test, so
a value is returned for conditions the test rejects. The flag is read with the wrong sense. -/
theorem C16_default_skips_check (fl : Flags) (h : fl.skipMethod = false) (c : Calc) :
    (∀ valid valid', mixtureProperty fl valid c = mixtureProperty fl valid' c) ∧
    mixtureProperty ⟨false, false, false, 0, 10⟩ (some false) (some (some 5)) = .val 5 := by
  refine ⟨fun valid valid' => ?_, by decide +kernel⟩
  unfold mixtureProperty
  rw [h]
  rfl

/-- **C16, the claim fails** for a method that computes `None` (a pure-component property is missing):
the plausibility test compares `None` with a number and the call raises, also for a non-strict object. -/
theorem C16_None_result_raises (fl : Flags) (h : fl.skipProp = false) (h' : fl.skipMethod = false)
    (valid : Option Bool) : mixtureProperty fl valid (some none) = .raised := by
  simp [mixtureProperty, afterGuard, testProp, h, h']

/-! ## C48: the call memo -/

/-- Python sequences compare equal only if they are of the same kind. -/
inductive Seq (α : Type) where
  | tuple (a : α)
  | list (a : α)
  deriving DecidableEq

/-- The object: what `mixture_property` depends on (`W`: selected method, flags, pure-component
objects, ...) and the memo `TP_zs_ws_cached`, `prop_cached` (48-49, 411-415). -/
structure Obj (W A : Type) where
  world : W
  key : Seq (Option A)
  value : Res

variable {W A : Type} [DecidableEq A]

/-- `__call__` (386-416) for completed compositions; `A` is the type of argument quadruples. The key
compared is a tuple, the key stored is a list. -/
def call (f : W → A → Res) (s : Obj W A) (a : A) : Res × Obj W A :=
  if Seq.tuple (some a) = s.key then (s.value, s)
  else match f s.world a with
    | .raised => (.raised, s)
    | r => (r, { s with key := .list (some a), value := r })

/-- A history: calls, the method and pressure-correction setters, which reset the memo to a list of
`None` (359-376), and changes of anything else the property depends on, which do not. -/
inductive Op (W A : Type) where
  | call (a : A)
  | setter (g : W → W)
  | external (g : W → W)

def step (f : W → A → Res) (s : Obj W A) : Op W A → Obj W A
  | .call a => (call f s a).2
  | .setter g => { s with world := g s.world, key := .list none }
  | .external g => { s with world := g s.world }

/-- After construction: `self.method = method` (196) has replaced the class-level tuple by a list. -/
def new (w : W) : Obj W A := ⟨w, .list none, .none⟩

/-- **C48.** A call answers the evaluation under the current settings, after any history of calls,
setter uses and changes of the objects the property refers to (the memo is never used). -/
theorem C48_call_is_fresh (f : W → A → Res) (w : W) (ops : List (Op W A)) (a : A) :
    (call f (ops.foldl (step f) (new w)) a).1 = f (ops.foldl (step f) (new w)).world a := by
  have key : ∀ s : Obj W A, (∃ k, s.key = .list k) → (call f s a).1 = f s.world a := by
    rintro s ⟨k, hk⟩
    unfold call
    rw [hk, if_neg (by simp)]
    cases f s.world a <;> rfl
  have inv : ∀ (ops : List (Op W A)) (s : Obj W A), (∃ k, s.key = .list k) →
      ∃ k, (ops.foldl (step f) s).key = .list k := by
    intro ops
    induction ops with
    | nil => intro s h; exact h
    | cons o os ih =>
      intro s h
      refine ih _ ?_
      cases o with
      | setter g => exact ⟨none, rfl⟩
      | external g => exact h
      | call b =>
        obtain ⟨k, hk⟩ := h
        unfold step call
        dsimp only
        rw [hk, if_neg (by simp)]
        cases f s.world b with
        | val v => exact ⟨_, rfl⟩
        | none => exact ⟨_, rfl⟩
        | raised => exact ⟨k, hk⟩
  exact key _ (inv ops _ ⟨none, rfl⟩)

/-! ## C49: mixing rules -/

/-- `calculate` with method `LINEAR` (216-217; `chemicals.utils.mixing_simple`: the sum of the products,
modelled from its documentation). -/
def linear {F : Type*} [Semiring F] (N : ℕ) (z p : ℕ → F) : F := acc N fun i => z i * p i

/-- `calculate` with method `MIXING_LOG_MOLAR` or (with mass fractions) `MIXING_LOG_MASS` (218-227).
`trunc_log` and `trunc_exp` are taken as `log` and `exp`, as they are for positive properties in range. -/
noncomputable def logMix (N : ℕ) (z p : ℕ → ℝ) : ℝ := Real.exp (acc N fun i => z i * Real.log (p i))

/-- `calculate_excess_property` (493-501) for a rule `f` of the composition. -/
def excessProp {F : Type*} [Ring F] (N : ℕ) (f : (ℕ → F) → F) (z : ℕ → F) : F :=
  f z - acc N fun i => z i * f (fun j => if j = i then 1 else 0)

/-- **C49.** At a pure composition both rules give the property of that component. -/
theorem C49_pure (N q : ℕ) (hq : q < N) (p : ℕ → ℝ) (hp : 0 < p q) :
    linear N (fun j => if j = q then 1 else 0) p = p q ∧
    logMix N (fun j => if j = q then 1 else 0) p = p q := by
  constructor
  · simp [linear, acc_eq, hq]
  · simp [logMix, acc_eq, hq, Real.exp_log hp]

/-- **C49.** For mole fractions that are non-negative and sum to one both rules lie between the smallest
and the largest pure-component property. -/
theorem C49_bounds (N : ℕ) (z p : ℕ → ℝ) (hz : ∀ i < N, 0 ≤ z i) (h1 : ∑ i ∈ range N, z i = 1)
    (lo hi : ℝ) (hlo : 0 < lo) (hp : ∀ i < N, lo ≤ p i ∧ p i ≤ hi) :
    (lo ≤ linear N z p ∧ linear N z p ≤ hi) ∧ (lo ≤ logMix N z p ∧ logMix N z p ≤ hi) := by
  have avg : ∀ (g : ℕ → ℝ) (a b : ℝ), (∀ i < N, a ≤ g i ∧ g i ≤ b) →
      a ≤ ∑ i ∈ range N, z i * g i ∧ ∑ i ∈ range N, z i * g i ≤ b := by
    intro g a b hg
    constructor
    · calc a = ∑ i ∈ range N, z i * a := by rw [← sum_mul, h1, one_mul]
        _ ≤ _ := sum_le_sum fun i hi' => by
          have := mem_range.1 hi'
          exact mul_le_mul_of_nonneg_left (hg i this).1 (hz i this)
    · calc _ ≤ ∑ i ∈ range N, z i * b := sum_le_sum fun i hi' => by
            have := mem_range.1 hi'
            exact mul_le_mul_of_nonneg_left (hg i this).2 (hz i this)
        _ = b := by rw [← sum_mul, h1, one_mul]
  have hhi : 0 < hi := by
    by_contra hneg
    have : N ≠ 0 := by rintro rfl; simp at h1
    have := hp 0 (by omega)
    linarith
  refine ⟨by rw [linear, acc_eq]; exact avg p lo hi hp, ?_⟩
  have := avg (fun i => Real.log (p i)) (Real.log lo) (Real.log hi) fun i hi' =>
    ⟨Real.log_le_log hlo (hp i hi').1, Real.log_le_log (lt_of_lt_of_le hlo (hp i hi').1) (hp i hi').2⟩
  rw [logMix, acc_eq]
  exact ⟨(Real.le_exp_log lo).trans (Real.exp_le_exp.2 this.1) |>.trans le_rfl,
    by rw [← Real.exp_log hhi]; exact Real.exp_le_exp.2 this.2⟩

example : (∀ i < 2, 0 ≤ (fun i => if i = 0 then (0.25 : ℝ) else 0.75) i) ∧
    ∑ i ∈ range 2, (fun i => if i = 0 then (0.25 : ℝ) else 0.75) i = 1 := by
  constructor
  · intro i _; dsimp only; split <;> norm_num
  · rw [sum_range_succ, sum_range_succ, sum_range_zero]; norm_num

/-- **C49.** Relabelling the components changes nothing. -/
theorem C49_permutation (N : ℕ) (z z' p p' : ℕ → ℝ) (σ : Equiv.Perm (Fin N))
    (hz : ∀ i : Fin N, z' i = z (σ i)) (hp : ∀ i : Fin N, p' i = p (σ i)) :
    linear N z' p' = linear N z p ∧ logMix N z' p' = logMix N z p := by
  unfold linear logMix
  simp only [acc_eq_fin, hz, hp]
  rw [Equiv.sum_comp σ (fun i : Fin N => z i * p i),
    Equiv.sum_comp σ (fun i : Fin N => z i * Real.log (p i))]
  exact ⟨rfl, rfl⟩

/-- **C49.** The excess property of the linear rule is zero at every composition, and that of any rule is
zero for a pure component. -/
theorem C49_excess {F : Type*} [Ring F] (N : ℕ) (z p : ℕ → F) (f : (ℕ → F) → F) (q : ℕ) (hq : q < N) :
    excessProp N (fun z => linear N z p) z = 0 ∧
    excessProp N f (fun j => if j = q then 1 else 0) = 0 := by
  unfold excessProp linear
  simp only [acc_eq]
  constructor
  · rw [sub_eq_zero]
    refine sum_congr rfl fun i hi => ?_
    simp [mem_range.1 hi]
  · rw [sub_eq_zero]
    simp [hq]

/-! ## C50: the excess correlation of a mixture property -/

variable {F : Type*} [Field F]

/-- `calculate` for a Redlich–Kister excess correlation (228-233): the loop bound of
`redlich_kister_excess_inner` is given `N_T`, the number of temperature parameters, where that function
expects the number of components (231). `A` is the tensor at the temperature, with `N` rows; a row or
mole fraction beyond `N` is an `IndexError` (`none`). -/
def excessCorrelation (N NT n : ℕ) (A : ℕ → ℕ → ℕ → F) (z p : ℕ → F) : Option F :=
  if NT ≤ N then some (linear N z p + RedlichKister.excess NT n A z) else none

/-- **C50 (partial).** When the number of components equals the number of temperature parameters the
value is the linear rule plus the Redlich–Kister sum over all pairs. Missing: every other number of
components, where the claim is false (`C50_pairs_dropped`, `C50_raises`). -/
theorem C50_excess_correlation_partial (N NT n : ℕ) (A : ℕ → ℕ → ℕ → F) (z p : ℕ → F)
    (h : N = NT) : excessCorrelation N NT n A z p =
      some (∑ i ∈ range N, z i * p i + RedlichKister.RKsum N n A z) := by
  subst h
  simp [excessCorrelation, linear, acc_eq, RedlichKister.excess_eq]

/-- **C50, the claim fails** with more components than temperature parameters: with three components and
two parameters the interaction of the first and third component is dropped. -/
theorem C50_pairs_dropped : ∃ (A : ℕ → ℕ → ℕ → ℚ) (z p : ℕ → ℚ) (v : ℚ),
    excessCorrelation 3 2 1 A z p = some v ∧
    v ≠ ∑ i ∈ range 3, z i * p i + RedlichKister.RKsum 3 1 A z := by
  refine ⟨RedlichKister.build [((0, 2), fun _ => 1)], fun _ => 1 / 3, fun _ => 0, 0,
    by decide +kernel, ?_⟩
  rw [← RedlichKister.excess_eq]
  decide +kernel

/-- **C50, the claim fails** with fewer components than temperature parameters: a binary mixture with
three or six parameters cannot be evaluated at all. -/
theorem C50_raises (N NT n : ℕ) (A : ℕ → ℕ → ℕ → F) (z p : ℕ → F) (h : N < NT) :
    excessCorrelation N NT n A z p = none := by
  unfold excessCorrelation
  rw [if_neg (by omega)]

end Verif.Mixture
