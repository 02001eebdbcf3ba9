import Verif.Chem.Formation
import Mathlib.Topology.Order.IntermediateValue
import Mathlib.Analysis.SpecialFunctions.Log.Deriv
import Mathlib.Algebra.BigOperators.Field

/-!
# Flashes of one phase (`thermo/flash/flash_utils.py` 2588-3169)

* C121: `TPV_solve_HSGUA_1P`, `solve_PTV_HSGUA_1P`, `TPV_solve_HSGUA_guesses_1P`.

The solvers of `fluids` are arbitrary: each call is a history of points at which the function was evaluated together with a result or an error. The phase is an arbitrary
type of states with a partial function from the value of the iteration variable; property functions do not fail. Exceptions are values of `Err`.
-/

namespace Verif.OnePhase

open Verif.Formation MeasureTheory intervalIntegral Set

open Classical

inductive Var | T | P | V
  deriving DecidableEq
inductive Spec | H | S | G | U | A
  deriving DecidableEq

def Var.name : Var → String
  | .T => "T" | .P => "P" | .V => "V"
def Spec.name : Spec → String
  | .H => "H" | .S => "S" | .G => "G" | .U => "U" | .A => "A"

/-! ## The derivative asked for -/

/-- `strs_to_ders` (2588-2623), key: specification, iteration variable, fixed variable. -/
def ders : List ((Spec × Var × Var) × String) :=
  [((.H, .T, .P), "dH_dT_P"), ((.S, .T, .P), "dS_dT_P"), ((.G, .T, .P), "dG_dT_P"), ((.U, .T, .P), "dU_dT_P"), ((.A, .T, .P), "dA_dT_P"),
   ((.H, .T, .V), "dH_dT_V"), ((.S, .T, .V), "dS_dT_V"), ((.G, .T, .V), "dG_dT_V"), ((.U, .T, .V), "dU_dT_V"), ((.A, .T, .V), "dA_dT_V"),
   ((.H, .P, .T), "dH_dP_T"), ((.S, .P, .T), "dS_dP_T"), ((.G, .P, .T), "dG_dP_T"), ((.U, .P, .T), "dU_dP_T"), ((.A, .P, .T), "dA_dP_T"),
   ((.H, .P, .V), "dH_dP_V"), ((.S, .P, .V), "dS_dP_V"), ((.G, .P, .V), "dG_dP_V"), ((.U, .P, .V), "dU_dP_V"), ((.A, .P, .V), "dA_dP_V"),
   ((.H, .V, .T), "dH_dV_T"), ((.S, .V, .T), "dS_dV_T"), ((.G, .V, .T), "dG_dV_T"), ((.U, .V, .T), "dU_dV_T"), ((.A, .V, .T), "dA_dV_T"),
   ((.H, .V, .P), "dH_dV_P"), ((.S, .V, .P), "dS_dV_P"), ((.G, .V, .P), "dG_dV_P"), ((.U, .V, .P), "dU_dV_P"), ((.A, .V, .P), "dA_dV_P")]

/-- Lines 2708-2712. -/
def derAttr (s : Spec) (i f : Var) : String := (ders.lookup (s, i, f)).getD ("d" ++ s.name ++ "_d" ++ i.name)

/-- C121: Newton's method is given the derivative of the specified property with respect to the iteration variable at constant fixed variable, for all thirty
combinations. -/
theorem C121_derivative (s : Spec) (i f : Var) (h : i ≠ f) : derAttr s i f = "d" ++ s.name ++ "_d" ++ i.name ++ "_" ++ f.name := by
  cases s <;> cases i <;> cases f <;> first | exact absurd rfl h | decide +kernel

example : derAttr .S .P .V = "dS_dP_V" := C121_derivative .S .P .V (by decide)

/-! ## Evaluations -/

/-- The variables `store` and `iterations`. -/
structure Mem (S : Type) where
  (store : Option (S × ℝ)) (its : ℕ)

/-- What is solved: the phase at a value of the iteration variable, the property, and the value wanted (`spec_val`, or `spec_fun` of the phase). -/
structure Prob (S : Type) where
  (at' : ℝ → Option S) (get want : S → ℝ)

noncomputable def Prob.err {S : Type} (q : Prob S) (p : S) : ℝ := q.get p - q.want p

/-- `to_solve` (2715-2736) without a phase; a phase that cannot be made raises. -/
noncomputable def eval {S : Type} (q : Prob S) (m : Mem S) (x : ℝ) : Mem S × Option ℝ :=
  match q.at' x with
  | some p => (⟨some (p, q.err p), m.its + 1⟩, some (q.err p))
  | none => (⟨m.store, m.its + 1⟩, none)

/-- `to_solve` with a phase that is there already. -/
noncomputable def evalAt {S : Type} (q : Prob S) (m : Mem S) (p : S) : Mem S × ℝ := (⟨some (p, q.err p), m.its + 1⟩, q.err p)

/-- Lines 2793, 2799: `to_solve(under_trans, lower_phase)`, where the phase may be `None`. -/
noncomputable def evalOpt {S : Type} (q : Prob S) (m : Mem S) (x : ℝ) (p : Option S) : Mem S × Option ℝ :=
  match p with
  | some p => ((evalAt q m p).1, some (evalAt q m p).2)
  | none => eval q m x

/-- A solver's evaluations. -/
noncomputable def evals {S : Type} (q : Prob S) (m : Mem S) (xs : List ℝ) : Mem S := xs.foldl (fun m x => (eval q m x).1) m

/-! ## Brackets around the phase transition -/

/-- What the block 2754-2825 leaves behind. -/
inductive Br where
  | notBounded
  | unchanged
  | bounds (lo hi guess : ℝ)

/-- The transition: the two points next to it, their phases if made there, and `transitions[0]`. -/
structure Trans (S : Type) where
  (under above first : ℝ) (lower higher : Option S)

/-- The lower test (2791-2796): memory, and whether it brackets; `none` is an exception. -/
noncomputable def lowTest {S : Type} (q : Prob S) (t : Trans S) (m : Mem S) (mn : Option ℝ) : Mem S × Option Bool :=
  match mn with
  | none => (m, some false)
  | some x =>
    let a := eval q m x
    let b := evalOpt q a.1 t.under t.lower
    match a.2, b.2 with
    | some fa, some fb => (b.1, some (decide (fa * fb ≤ 0)))
    | none, _ => (a.1, none)
    | some _, none => (b.1, none)

/-- The upper test (2797-2802). -/
noncomputable def highTest {S : Type} (q : Prob S) (t : Trans S) (m : Mem S) (mx : Option ℝ) : Mem S × Option Bool :=
  match mx with
  | none => (m, some false)
  | some x =>
    let a := eval q m x
    let b := evalOpt q a.1 t.above t.higher
    match a.2, b.2 with
    | some fa, some fb => (b.1, some (decide (fa * fb ≤ 0)))
    | none, _ => (a.1, none)
    | some _, none => (b.1, none)

/-- Lines 2804-2818, from the two tests. -/
noncomputable def decideBr {S : Type} (t : Trans S) (mn mx : Option ℝ) (ignore : Bool) (guess : ℝ) (lowB highB : Bool) : Br :=
  let inside (lo hi : ℝ) : Br := .bounds lo hi (if lo < guess ∧ guess < hi then guess else (lo + hi) / 2)
  match mx, highB, mn, lowB with
  | some x, true, _, _ => inside (min x t.above) (max x t.above)
  | _, _, some x, true => inside (min x t.under) (max x t.under)
  | _, _, _, _ =>
    if ignore then .unchanged
    else if mx.isSome then .notBounded
    else match mn with
      | some x => if t.first < x then .notBounded else .unchanged
      | none => .unchanged

/-- `multiple_solution_sets` (2626-2628): fixed variable and specification; the other five entries have the two exchanged and cannot occur. -/
def multipleSets : List (Var × Spec) := [(.T, .S), (.T, .H), (.T, .U), (.T, .A), (.T, .G)]

/-- Line 2700. -/
def multiple (f : Var) (s : Spec) : Bool := decide ((f, s) ∈ multipleSets)

/-- Line 2752. -/
def ignoreFail (f i : Var) : Bool := decide (f = .T ∧ i = .P)

/-- The block 2754-2825, entered for a fixed temperature. -/
noncomputable def bracket {S : Type} (q : Prob S) (t : Trans S) (m : Mem S) (mn mx : Option ℝ) (multi ignore : Bool) (guess : ℝ) : Mem S × Br :=
  match lowTest q t m mn with
  | (m1, none) => (m1, .unchanged)
  | (m1, some l) =>
    match highTest q t m1 (if l && !multi then none else mx) with
    | (m2, none) => (m2, .unchanged)
    | (m2, some h) => (m2, decideBr t mn mx ignore guess l h)

/-! ## The whole function -/

inductive Err | notBounded | unbound | empty | brenth
  deriving DecidableEq

/-- A call of `newton` or `secant`: evaluations and value; `none` is `UnconvergedError`, `OscillationError` or `NotBoundedError`. -/
abbrev Solver := Option ℝ → Option ℝ → ℝ → List ℝ × Option ℝ
/-- A call of `brenth`. -/
abbrev Bracketer := ℝ → ℝ → List ℝ × Option ℝ

/-- Lines 2739-2749: the physical limit for a fixed volume. -/
noncomputable def physMax (fixed : Var) (phys mx : Option ℝ) : Option ℝ × Option ℝ :=
  match fixed, phys with
  | .V, some p => match mx with
    | none => (some p, some p)
    | some x => (some (min p x), some (min p x))
  | _, _ => (mx, none)

/-- What the block leaves as lower bound, upper bound, upper bound of the solver and guess. -/
noncomputable def afterBr (b : Br) (mn mx high : Option ℝ) (guess : ℝ) : Option (Option ℝ × Option ℝ × Option ℝ × ℝ) :=
  match b with
  | .notBounded => none
  | .unchanged => some (mn, mx, high, guess)
  | .bounds lo hi g => some (some lo, some hi, some hi, g)

/-- Lines 2865-2888: the second attempt. `narrow` are the bounds from the points of the first attempt, with the points evaluated to find them. -/
noncomputable def second {S : Type} (q : Prob S) (m : Mem S) (bounded : Bool) (mn mx : Option ℝ) (narrow : List ℝ × Option (ℝ × ℝ)) (br : Bracketer) :
    Mem S × Except Err ℝ :=
  match bounded, mn, mx with
  | true, some a, some b =>
    let m1 := evals q m narrow.1
    let ab := match narrow.2 with
      | some (c, d) => if 2.5e-4 < |c / d - 1| then (c, d) else (a, b)
      | none => (a, b)
    let r := br ab.1 ab.2
    (evals q m1 r.1, match r.2 with
      | some x => .ok x
      | none => .error .brenth)
  | _, _, _ => (m, .error .unbound)

/-- `TPV_solve_HSGUA_1P` (2687-2890). `t` is the transition, `none` when the block is not entered or its phase or transitions cannot be found; `narrow` depends on what the
first attempt evaluated. -/
noncomputable def solve {S : Type} (q : Prob S) (fixed iter : Var) (spec : Spec) (t : Option (Trans S)) (phys mn mx : Option ℝ) (bounded : Bool) (guess : ℝ)
    (nw : Solver) (narrow : List ℝ → List ℝ × Option (ℝ × ℝ)) (br : Bracketer) : Except Err (ℝ × S × ℕ × ℝ) :=
  let hm := physMax fixed phys mx
  let b := match t with
    | some t => bracket q t ⟨none, 0⟩ mn hm.1 (multiple fixed spec) (ignoreFail fixed iter) guess
    | none => (⟨none, 0⟩, .unchanged)
  match afterBr b.2 mn hm.1 hm.2 guess with
  | none => .error .notBounded
  | some (lo, hi, high, g) =>
    let r := nw lo high g
    let m1 := evals q b.1 r.1
    let fin := match r.2 with
      | some x => (m1, Except.ok x)
      | none => second q m1 bounded lo hi (narrow r.1) br
    match fin.2 with
    | .error e => .error e
    | .ok x => match fin.1.store with
      | some (p, e) => .ok (x, p, fin.1.its, e)
      | none => .error .empty

/-! ## C121: the phase and the error returned belong together -/

/-- Where a phase may have come from: the iteration variable was set, or it is one of the two phases next to the transition. -/
def Origin {S : Type} (q : Prob S) (t : Option (Trans S)) (p : S) : Prop :=
  (∃ x, q.at' x = some p) ∨ ∃ t', t = some t' ∧ (t'.lower = some p ∨ t'.higher = some p)

def Good {S : Type} (q : Prob S) (t : Option (Trans S)) (m : Mem S) : Prop := ∀ p e, m.store = some (p, e) → e = q.get p - q.want p ∧ Origin q t p

theorem good_eval {S : Type} (q : Prob S) (t : Option (Trans S)) (m : Mem S) (h : Good q t m) (x : ℝ) : Good q t (eval q m x).1 := by
  unfold eval
  cases hx : q.at' x with
  | none => exact h
  | some p =>
    intro p' e he
    simp only [Option.some.injEq, Prod.mk.injEq] at he
    obtain ⟨rfl, rfl⟩ := he
    exact ⟨rfl, Or.inl ⟨x, hx⟩⟩

theorem good_evalOpt {S : Type} (q : Prob S) (t : Option (Trans S)) (m : Mem S) (h : Good q t m) (x : ℝ) (p : Option S)
    (hp : ∀ p', p = some p' → Origin q t p') : Good q t (evalOpt q m x p).1 := by
  cases p with
  | none => exact good_eval q t m h x
  | some p =>
    intro p' e he
    simp only [evalOpt, evalAt, Option.some.injEq, Prod.mk.injEq] at he
    obtain ⟨rfl, rfl⟩ := he
    exact ⟨rfl, hp _ rfl⟩

theorem good_evals {S : Type} (q : Prob S) (t : Option (Trans S)) : ∀ (xs : List ℝ) (m : Mem S), Good q t m → Good q t (evals q m xs)
  | [], _, h => h
  | x :: xs, m, h => good_evals q t xs _ (good_eval q t m h x)

theorem its_evals {S : Type} (q : Prob S) : ∀ (xs : List ℝ) (m : Mem S), (evals q m xs).its = m.its + xs.length
  | [], _ => rfl
  | x :: xs, m => by
    have h : (eval q m x).1.its = m.its + 1 := by unfold eval; cases q.at' x <;> rfl
    show (evals q (eval q m x).1 xs).its = _
    rw [its_evals q xs, h, List.length_cons]; omega

theorem good_low {S : Type} (q : Prob S) (t : Trans S) (m : Mem S) (h : Good q (some t) m) (mn : Option ℝ) : Good q (some t) (lowTest q t m mn).1 := by
  unfold lowTest
  cases mn with
  | none => exact h
  | some x =>
    have h1 := good_eval q (some t) m h x
    have h2 := good_evalOpt q (some t) _ h1 t.under t.lower fun p' hp => Or.inr ⟨t, rfl, Or.inl hp⟩
    dsimp only
    cases (eval q m x).2 with
    | none => exact h1
    | some a => cases (evalOpt q (eval q m x).1 t.under t.lower).2 <;> exact h2

theorem good_high {S : Type} (q : Prob S) (t : Trans S) (m : Mem S) (h : Good q (some t) m) (mx : Option ℝ) : Good q (some t) (highTest q t m mx).1 := by
  unfold highTest
  cases mx with
  | none => exact h
  | some x =>
    have h1 := good_eval q (some t) m h x
    have h2 := good_evalOpt q (some t) _ h1 t.above t.higher fun p' hp => Or.inr ⟨t, rfl, Or.inr hp⟩
    dsimp only
    cases (eval q m x).2 with
    | none => exact h1
    | some a => cases (evalOpt q (eval q m x).1 t.above t.higher).2 <;> exact h2

theorem good_bracket {S : Type} (q : Prob S) (t : Trans S) (m : Mem S) (h : Good q (some t) m) (mn mx : Option ℝ) (mu ig : Bool) (g : ℝ) :
    Good q (some t) (bracket q t m mn mx mu ig g).1 := by
  unfold bracket
  have h1 := good_low q t m h mn
  cases hl : lowTest q t m mn with
  | mk m1 r1 =>
    rw [hl] at h1
    cases r1 with
    | none => exact h1
    | some l =>
      have h2 := good_high q t m1 h1 (if l && !mu then none else mx)
      dsimp only
      cases hh : highTest q t m1 (if l && !mu then none else mx) with
      | mk m2 r2 =>
        rw [hh] at h2
        cases r2 <;> exact h2

theorem good_second {S : Type} (q : Prob S) (t : Option (Trans S)) (m : Mem S) (h : Good q t m) (bd : Bool) (mn mx : Option ℝ) (n : List ℝ × Option (ℝ × ℝ))
    (br : Bracketer) : Good q t (second q m bd mn mx n br).1 := by
  unfold second
  split
  · exact good_evals q t _ _ (good_evals q t _ _ h)
  · exact h

/-- C121: whatever the solvers do, the error returned is that of the phase returned, and that phase was made with the fixed variable at its specified value. -/
theorem C121_store {S : Type} (q : Prob S) (fixed iter : Var) (spec : Spec) (t : Option (Trans S)) (phys mn mx : Option ℝ) (bounded : Bool) (guess : ℝ) (nw : Solver)
    (narrow : List ℝ → List ℝ × Option (ℝ × ℝ)) (br : Bracketer) (x : ℝ) (p : S) (n : ℕ) (e : ℝ)
    (h : solve q fixed iter spec t phys mn mx bounded guess nw narrow br = .ok (x, p, n, e)) :
    e = q.get p - q.want p ∧ Origin q t p := by
  unfold solve at h
  dsimp only at h
  have hb : Good q t (match t with
    | some t => bracket q t ⟨none, 0⟩ mn (physMax fixed phys mx).1 (multiple fixed spec) (ignoreFail fixed iter) guess
    | none => ((⟨none, 0⟩ : Mem S), Br.unchanged)).1 := by
    cases t with
    | none => intro p e h; simp at h
    | some t => exact good_bracket q t _ (by intro p e h; simp at h) _ _ _ _ _
  revert h hb
  generalize (match t with
    | some t => bracket q t ⟨none, 0⟩ mn (physMax fixed phys mx).1 (multiple fixed spec) (ignoreFail fixed iter) guess
    | none => ((⟨none, 0⟩ : Mem S), Br.unchanged)) = b
  intro h hb
  cases ha : afterBr b.2 mn (physMax fixed phys mx).1 (physMax fixed phys mx).2 guess with
  | none => rw [ha] at h; simp at h
  | some w =>
    obtain ⟨lo, hi, high, g⟩ := w
    rw [ha] at h
    dsimp only at h
    have hg := good_evals q t (nw lo high g).1 b.1 hb
    cases hr : (nw lo high g).2 with
    | some y =>
      rw [hr] at h
      dsimp only at h
      cases hs : (evals q b.1 (nw lo high g).1).store with
      | none => rw [hs] at h; simp at h
      | some pe =>
        rw [hs] at h
        simp only [Except.ok.injEq, Prod.mk.injEq] at h
        obtain ⟨_, rfl, _, rfl⟩ := h
        exact hg _ _ hs
    | none =>
      rw [hr] at h
      dsimp only at h
      have hg2 := good_second q t _ hg bounded lo hi (narrow (nw lo high g).1) br
      cases hse : (second q (evals q b.1 (nw lo high g).1) bounded lo hi (narrow (nw lo high g).1) br).2 with
      | error er => rw [hse] at h; simp at h
      | ok y =>
        rw [hse] at h
        dsimp only at h
        cases hs : (second q (evals q b.1 (nw lo high g).1) bounded lo hi (narrow (nw lo high g).1) br).1.store with
        | none => rw [hs] at h; simp at h
        | some pe =>
          rw [hs] at h
          simp only [Except.ok.injEq, Prod.mk.injEq] at h
          obtain ⟨_, rfl, _, rfl⟩ := h
          exact hg2 _ _ hs

theorem evals_last {S : Type} (q : Prob S) (m : Mem S) (xs : List ℝ) (x : ℝ) (p : S) (hp : q.at' x = some p) :
    (evals q m (xs ++ [x])).store = some (p, q.err p) := by
  simp [evals, List.foldl_append, eval, hp]

/-- C121: if the solver evaluates its result last, the phase is that at the value returned, and the number of iterations is that of its evaluations (no transition, first
attempt successful). -/
theorem C121_value {S : Type} (q : Prob S) (fixed iter : Var) (spec : Spec) (phys mn mx : Option ℝ) (bounded : Bool) (guess : ℝ) (nw : Solver)
    (narrow : List ℝ → List ℝ × Option (ℝ × ℝ)) (br : Bracketer) (x : ℝ) (xs : List ℝ) (p : S) (hp : q.at' x = some p)
    (hn : nw mn (physMax fixed phys mx).2 guess = (xs ++ [x], some x)) :
    solve q fixed iter spec none phys mn mx bounded guess nw narrow br = .ok (x, p, xs.length + 1, q.get p - q.want p) := by
  unfold solve
  simp only [afterBr, hn]
  rw [evals_last q _ xs x p hp]
  simp [its_evals, Prob.err]

/-- C121: the same for the second attempt, which is made between the bounds when the first one fails. -/
theorem C121_second {S : Type} (q : Prob S) (fixed iter : Var) (spec : Spec) (mn mx : ℝ) (guess : ℝ) (nw : Solver)
    (br : Bracketer) (hf : fixed ≠ .V) (x : ℝ) (xs ys : List ℝ) (p : S) (hp : q.at' x = some p) (hn : nw (some mn) none guess = (ys, none))
    (hb : br mn mx = (xs ++ [x], some x)) :
    solve q fixed iter spec none none (some mn) (some mx) true guess nw (fun _ => ([], none)) br = .ok (x, p, ys.length + xs.length + 1, q.get p - q.want p) := by
  have hm : physMax fixed none (some mx) = (some mx, none) := by cases fixed <;> simp [physMax] at hf ⊢
  unfold solve
  simp only [hm, afterBr, hn, second, hb]
  rw [show evals q (evals q ⟨none, 0⟩ ys) [] = evals q ⟨none, 0⟩ ys from rfl, evals_last q _ xs x p hp]
  simp [its_evals, Prob.err]
  omega

/-- A phase whose state is the value itself. -/
def lin (c : ℝ) : Prob ℝ := ⟨fun x => some x, fun p => p, fun _ => c⟩

example : solve (lin 3) .P .T .H none none none none false 1 (fun _ _ _ => ([1, 2, 3], some 3)) (fun _ => ([], none)) (fun _ _ => ([], none)) = .ok (3, 3, 3, 3 - 3) :=
  C121_value (lin 3) .P .T .H none none none false 1 _ _ _ 3 [1, 2] 3 rfl rfl

example : solve (lin 3) .P .T .H none none (some 0) (some 9) true 1 (fun _ _ _ => ([1, 2], none)) (fun _ => ([], none)) (fun a b => ([a, b, 3], some 3)) =
    .ok (3, 3, 5, 3 - 3) :=
  C121_second (lin 3) .P .T .H 0 9 1 _ _ (by decide) 3 [0, 9] [1, 2] 3 rfl rfl rfl

example : (3 - 3 : ℝ) = (lin 3).get 3 - (lin 3).want 3 ∧ Origin (lin 3) none 3 :=
  C121_store (lin 3) .P .T .H none none none none false 1 (fun _ _ _ => ([1, 2, 3], some 3)) (fun _ => ([], none)) (fun _ _ => ([], none)) 3 3 3 (3 - 3)
    (C121_value (lin 3) .P .T .H none none none false 1 _ _ _ 3 [1, 2] 3 rfl rfl)

/-- C121 (`_fails`): a solver called without `require_eval` may return a point it has not evaluated (Newton's next step); then the phase returned is not the one at the
value returned. -/
theorem C121_value_fails : ∃ (nw : Solver) (x p e : ℝ) (n : ℕ),
    solve (lin 3) .P .T .H none none none none false 1 nw (fun _ => ([], none)) (fun _ _ => ([], none)) = .ok (x, p, n, e) ∧ (lin 3).err x = 0 ∧ p ≠ x ∧ e ≠ 0 := by
  refine ⟨fun _ _ _ => ([1], some 3), 3, 1, 1 - 3, 1, ?_, ?_, by norm_num, by norm_num⟩
  · simp [solve, afterBr, physMax, evals, eval, lin, Prob.err]
  · simp [lin, Prob.err]

/-- C121 (`_fails`): when the first attempt fails and no bounded attempt is asked for, or a bound is missing, the variable to be returned was never set: the caller gets
an `UnboundLocalError` instead of the solver's error. -/
theorem C121_unbound_fails {S : Type} (q : Prob S) (fixed iter : Var) (spec : Spec) (mn mx : Option ℝ) (bounded : Bool) (guess : ℝ) (nw : Solver)
    (narrow : List ℝ → List ℝ × Option (ℝ × ℝ)) (br : Bracketer) (hf : fixed ≠ .V) (hn : (nw mn none guess).2 = none)
    (hb : bounded = false ∨ mn = none ∨ mx = none) : solve q fixed iter spec none none mn mx bounded guess nw narrow br = .error .unbound := by
  have hm : physMax fixed none mx = (mx, none) := by cases fixed <;> simp [physMax] at hf ⊢
  unfold solve
  simp only [hm, afterBr, hn, second]
  rcases hb with rfl | rfl | rfl
  · rfl
  · cases bounded <;> rfl
  · cases bounded <;> cases mn <;> rfl

example : solve (lin 3) .P .T .H none none none none false 1 (fun _ _ _ => ([1], none)) (fun _ => ([], none)) (fun _ _ => ([], none)) = .error .unbound :=
  C121_unbound_fails (lin 3) .P .T .H none none false 1 _ _ _ (by decide) rfl (Or.inl rfl)

/-- C121: with a fixed volume no solver looks above the physical maximum; otherwise the bound is untouched. -/
theorem C121_physical (fixed : Var) (phys mx : Option ℝ) :
    (∀ p h, fixed = .V → phys = some p → (physMax fixed phys mx).1 = some h → h ≤ p) ∧
    (∀ x h, mx = some x → (physMax fixed phys mx).1 = some h → h ≤ x) ∧
    (fixed = .V → phys.isSome → (physMax fixed phys mx).2 = (physMax fixed phys mx).1 ∧ (physMax fixed phys mx).1.isSome) ∧
    (fixed ≠ .V → physMax fixed phys mx = (mx, none)) := by
  refine ⟨fun p h hf hp hh => ?_, fun x h hx hh => ?_, fun hf hp => ?_, fun hf => ?_⟩
  · subst hf; subst hp
    cases mx with
    | none => simp only [physMax, Option.some.injEq] at hh; exact hh.ge
    | some x => simp only [physMax, Option.some.injEq] at hh; rw [← hh]; exact min_le_left _ _
  · subst hx
    cases fixed <;> cases phys <;> simp only [physMax, Option.some.injEq] at hh <;> first | exact hh.ge | (rw [← hh]; exact min_le_right _ _)
  · subst hf
    obtain ⟨p, rfl⟩ := Option.isSome_iff_exists.1 hp
    cases mx <;> simp [physMax]
  · cases fixed <;> simp [physMax] at hf ⊢

example : physMax .V (some 500) (some 1000) = (some 500, some 500) := by norm_num [physMax]

/-! ## C121: brackets -/

/-- The error at a point, as the tests see it. -/
noncomputable def fAt {S : Type} (q : Prob S) (x : ℝ) (p : Option S) : Option ℝ :=
  match p with
  | some p => some (q.err p)
  | none => (q.at' x).map q.err

theorem eval_snd {S : Type} (q : Prob S) (m : Mem S) (x : ℝ) : (eval q m x).2 = (q.at' x).map q.err := by
  unfold eval; cases q.at' x <;> rfl

theorem evalOpt_snd {S : Type} (q : Prob S) (m : Mem S) (x : ℝ) (p : Option S) : (evalOpt q m x p).2 = fAt q x p := by
  cases p with
  | none => exact eval_snd q m x
  | some p => rfl

theorem low_spec {S : Type} (q : Prob S) (t : Trans S) (m : Mem S) (mn : Option ℝ) (b : Bool) (h : (lowTest q t m mn).2 = some b) :
    b = true ↔ ∃ x fa fb, mn = some x ∧ fAt q x none = some fa ∧ fAt q t.under t.lower = some fb ∧ fa * fb ≤ 0 := by
  unfold lowTest at h
  cases mn with
  | none => simp at h; simp [← h]
  | some x =>
    dsimp only at h
    rw [eval_snd, evalOpt_snd] at h
    cases ha : (q.at' x).map q.err with
    | none => rw [ha] at h; simp at h
    | some fa =>
      cases hb : fAt q t.under t.lower with
      | none => rw [ha, hb] at h; simp at h
      | some fb =>
        rw [ha, hb] at h
        simp only [Option.some.injEq] at h
        rw [← h]
        constructor
        · intro hd; exact ⟨x, fa, fb, rfl, ha, rfl, by simpa using hd⟩
        · rintro ⟨x', fa', fb', e, e1, e2, e3⟩
          simp only [Option.some.injEq] at e e2
          subst e; subst e2
          rw [show fAt q x none = some fa from ha] at e1
          simp only [Option.some.injEq] at e1
          subst e1
          simpa using e3

theorem high_spec {S : Type} (q : Prob S) (t : Trans S) (m : Mem S) (mx : Option ℝ) (b : Bool) (h : (highTest q t m mx).2 = some b) :
    b = true ↔ ∃ x fa fb, mx = some x ∧ fAt q x none = some fa ∧ fAt q t.above t.higher = some fb ∧ fa * fb ≤ 0 := by
  unfold highTest at h
  cases mx with
  | none => simp at h; simp [← h]
  | some x =>
    dsimp only at h
    rw [eval_snd, evalOpt_snd] at h
    cases ha : (q.at' x).map q.err with
    | none => rw [ha] at h; simp at h
    | some fa =>
      cases hb : fAt q t.above t.higher with
      | none => rw [ha, hb] at h; simp at h
      | some fb =>
        rw [ha, hb] at h
        simp only [Option.some.injEq] at h
        rw [← h]
        constructor
        · intro hd; exact ⟨x, fa, fb, rfl, ha, rfl, by simpa using hd⟩
        · rintro ⟨x', fa', fb', e, e1, e2, e3⟩
          simp only [Option.some.injEq] at e e2
          subst e; subst e2
          rw [show fAt q x none = some fa from ha] at e1
          simp only [Option.some.injEq] at e1
          subst e1
          simpa using e3

/-- The two tests as the block sees them. -/
theorem bracket_cases {S : Type} (q : Prob S) (t : Trans S) (m : Mem S) (mn mx : Option ℝ) (mu ig : Bool) (g : ℝ) :
    (bracket q t m mn mx mu ig g).2 = .unchanged ∨ ∃ m1 l h, (lowTest q t m mn).2 = some l ∧ (highTest q t m1 (if l && !mu then none else mx)).2 = some h ∧
      (bracket q t m mn mx mu ig g).2 = decideBr t mn mx ig g l h := by
  unfold bracket
  cases hl : lowTest q t m mn with
  | mk m1 r1 =>
    cases r1 with
    | none => exact Or.inl rfl
    | some l =>
      dsimp only
      cases hh : highTest q t m1 (if l && !mu then none else mx) with
      | mk m2 r2 =>
        cases r2 with
        | none => exact Or.inl rfl
        | some h => exact Or.inr ⟨m1, l, h, rfl, by rw [hh], rfl⟩

/-- C121: an interval found next to the transition has errors of opposite sign (or zero) at a bound and at the point next to the transition, the guess lies in it, and a
guess that was inside is kept. -/
theorem C121_bracket {S : Type} (q : Prob S) (t : Trans S) (m : Mem S) (mn mx : Option ℝ) (mu ig : Bool) (g lo hi g' : ℝ)
    (h : (bracket q t m mn mx mu ig g).2 = .bounds lo hi g') :
    (∃ x y p fa fb, ((mn = some x ∧ y = t.under ∧ p = t.lower) ∨ (mx = some x ∧ y = t.above ∧ p = t.higher)) ∧ lo = min x y ∧ hi = max x y ∧
      fAt q x none = some fa ∧ fAt q y p = some fb ∧ fa * fb ≤ 0) ∧
    lo ≤ g' ∧ g' ≤ hi ∧ (lo < g ∧ g < hi → g' = g) := by
  rcases bracket_cases q t m mn mx mu ig g with hu | ⟨m1, l, hb, h1, h2, h3⟩
  · rw [hu] at h; simp at h
  · rw [h3] at h
    have key : ∀ x y : ℝ, Br.bounds (min x y) (max x y) (if min x y < g ∧ g < max x y then g else (min x y + max x y) / 2) = .bounds lo hi g' →
        lo = min x y ∧ hi = max x y ∧ lo ≤ g' ∧ g' ≤ hi ∧ (lo < g ∧ g < hi → g' = g) := by
      intro x y hh
      simp only [Br.bounds.injEq] at hh
      obtain ⟨rfl, rfl, rfl⟩ := hh
      have hle : min x y ≤ max x y := min_le_max
      refine ⟨rfl, rfl, ?_, ?_, fun hi => by rw [if_pos hi]⟩ <;> split_ifs with hi
      · exact hi.1.le
      · linarith
      · exact hi.2.le
      · linarith
    have hH : hb = true → ∃ x fa fb, mx = some x ∧ fAt q x none = some fa ∧ fAt q t.above t.higher = some fb ∧ fa * fb ≤ 0 := by
      intro e
      obtain ⟨x, fa, fb, e0, e1⟩ := (high_spec q t m1 _ hb h2).1 e
      split_ifs at e0
      exact ⟨x, fa, fb, e0, e1⟩
    have hL := low_spec q t m mn l h1
    cases mx with
    | some x =>
      cases hb with
      | true =>
        obtain ⟨x', fa, fb, e, e1, e2, e3⟩ := hH rfl
        simp only [Option.some.injEq] at e
        subst e
        obtain ⟨k1, k2, k3⟩ := key x t.above h
        exact ⟨⟨x, t.above, t.higher, fa, fb, Or.inr ⟨rfl, rfl, rfl⟩, k1, k2, e1, e2, e3⟩, k3⟩
      | false =>
        cases mn with
        | none => simp [decideBr] at h; cases ig <;> simp at h
        | some z =>
          cases l with
          | false => simp [decideBr] at h; cases ig <;> simp at h
          | true =>
            obtain ⟨x', fa, fb, e, e1, e2, e3⟩ := hL.1 rfl
            simp only [Option.some.injEq] at e
            subst e
            obtain ⟨k1, k2, k3⟩ := key z t.under h
            exact ⟨⟨z, t.under, t.lower, fa, fb, Or.inl ⟨rfl, rfl, rfl⟩, k1, k2, e1, e2, e3⟩, k3⟩
    | none =>
      cases mn with
      | none => cases hb <;> simp [decideBr] at h <;> cases ig <;> simp at h
      | some z =>
        cases l with
        | false =>
          cases hb <;> simp [decideBr] at h <;> cases ig <;> simp at h <;> split_ifs at h
        | true =>
          obtain ⟨x', fa, fb, e, e1, e2, e3⟩ := hL.1 rfl
          simp only [Option.some.injEq] at e
          subst e
          have h' : Br.bounds (min z t.under) (max z t.under) (if min z t.under < g ∧ g < max z t.under then g else (min z t.under + max z t.under) / 2) =
              .bounds lo hi g' := by cases hb <;> exact h
          obtain ⟨k1, k2, k3⟩ := key z t.under h'
          exact ⟨⟨z, t.under, t.lower, fa, fb, Or.inl ⟨rfl, rfl, rfl⟩, k1, k2, e1, e2, e3⟩, k3⟩

/-- C121: where the error is continuous between the ends, the interval contains a solution. -/
theorem C121_bracket_root {S : Type} (q : Prob S) (t : Trans S) (m : Mem S) (mn mx : Option ℝ) (mu ig : Bool) (g lo hi g' : ℝ)
    (h : (bracket q t m mn mx mu ig g).2 = .bounds lo hi g') (hl : t.lower = none) (hh : t.higher = none) (f : ℝ → ℝ) (hf : ∀ x, (q.at' x).map q.err = some (f x))
    (hc : ContinuousOn f (Icc lo hi)) : ∃ x ∈ Icc lo hi, f x = 0 := by
  obtain ⟨⟨x, y, p, fa, fb, hxy, rfl, rfl, h1, h2, h3⟩, _⟩ := C121_bracket q t m mn mx mu ig g lo hi g' h
  have hp : p = none := by rcases hxy with ⟨_, _, rfl⟩ | ⟨_, _, rfl⟩ <;> assumption
  subst hp
  simp only [fAt, hf, Option.some.injEq] at h1 h2
  subst h1; subst h2
  have : (0 : ℝ) ∈ uIcc (f x) (f y) := by
    rw [mem_uIcc]
    rcases le_total 0 (f x) with h | h
    · rcases h.eq_or_lt with h0 | h0
      · rcases le_total 0 (f y) with h' | h'
        · left; exact ⟨h0.ge, h'⟩
        · right; exact ⟨h', h0.le⟩
      · right; exact ⟨by by_contra hn; push Not at hn; nlinarith, h⟩
    · rcases h.eq_or_lt with h0 | h0
      · rcases le_total 0 (f y) with h' | h'
        · left; exact ⟨h0.le, h'⟩
        · right; exact ⟨h', h0.ge⟩
      · left; exact ⟨h, by by_contra hn; push Not at hn; nlinarith⟩
  obtain ⟨z, hz, hz0⟩ := intermediate_value_uIcc (f := f) (a := x) (b := y) hc this
  exact ⟨z, hz, hz0⟩

/-- A transition at one, with an error that changes sign on both sides. -/
noncomputable def twoRoots : Prob ℝ := ⟨fun x => some x, fun x => (x - 1 / 2) * (x - 2), fun _ => 0⟩
def tr1 : Trans ℝ := ⟨1, 1, 1, none, none⟩

example : (bracket twoRoots tr1 ⟨none, 0⟩ (some 0) (some 3) true false (3 / 2)).2 = .bounds 1 3 (3 / 2) ∧ ∃ x ∈ Icc (1 : ℝ) 3, (x - 1 / 2) * (x - 2) = 0 := by
  have h : (bracket twoRoots tr1 ⟨none, 0⟩ (some 0) (some 3) true false (3 / 2)).2 = .bounds 1 3 (3 / 2) := by
    norm_num [bracket, lowTest, highTest, eval, evalOpt, twoRoots, tr1, Prob.err, decideBr]
  obtain ⟨x, hx, h0⟩ := C121_bracket_root twoRoots tr1 _ _ _ _ _ _ _ _ _ h rfl rfl (fun x => (x - 1 / 2) * (x - 2) - 0) (fun x => rfl) (by fun_prop)
  exact ⟨h, x, hx, by simpa using h0⟩

/-- C121: for a fixed temperature all specifications count as having several solutions, so when both sides of the transition contain one the upper side is taken, whatever the
guess. -/
theorem C121_upper {S : Type} (q : Prob S) (t : Trans S) (m : Mem S) (a b : ℝ) (s : Spec) (ig : Bool) (g : ℝ) (f : ℝ → ℝ) (hf : ∀ x, (q.at' x).map q.err = some (f x))
    (hl : t.lower = none) (hh : t.higher = none) (h2 : f b * f t.above ≤ 0) :
    ∃ g', (bracket q t m (some a) (some b) (multiple .T s) ig g).2 = .bounds (min b t.above) (max b t.above) g' := by
  have hm : multiple .T s = true := by cases s <;> decide
  have e1 : ∀ m', (eval q m' a).2 = some (f a) := fun m' => by rw [eval_snd, hf]
  have e2 : ∀ m', (evalOpt q m' t.under t.lower).2 = some (f t.under) := fun m' => by rw [evalOpt_snd, hl]; exact hf _
  have e3 : ∀ m', (eval q m' b).2 = some (f b) := fun m' => by rw [eval_snd, hf]
  have e4 : ∀ m', (evalOpt q m' t.above t.higher).2 = some (f t.above) := fun m' => by rw [evalOpt_snd, hh]; exact hf _
  have hl1 : lowTest q t m (some a) = ((evalOpt q (eval q m a).1 t.under t.lower).1, some (decide (f a * f t.under ≤ 0))) := by
    simp only [lowTest, e1, e2]
  have hh1 : ∀ m', highTest q t m' (some b) = ((evalOpt q (eval q m' b).1 t.above t.higher).1, some true) := fun m' => by
    simp only [highTest, e3, e4, h2, decide_true]
  refine ⟨if min b t.above < g ∧ g < max b t.above then g else (min b t.above + max b t.above) / 2, ?_⟩
  simp only [bracket, hl1, hm, Bool.not_true, Bool.and_false, Bool.false_eq_true, if_false, hh1]
  rfl

/-- C121 (`_fails`): the test for a missing lower bound looks at the upper bound twice (2804). Without a lower bound only the upper side is examined, and a solution below the
transition is answered by "not bounded". -/
theorem C121_lower_fails : ∃ (q : Prob ℝ) (t : Trans ℝ), (bracket q t ⟨none, 0⟩ none (some 3) true false (1 / 2)).2 = .notBounded ∧ q.err (1 / 2) = 0 ∧ (1 / 2 : ℝ) < t.under := by
  refine ⟨⟨fun x => some x, fun x => x - 1 / 2, fun _ => 0⟩, tr1, ?_, by norm_num [Prob.err], by norm_num [tr1]⟩
  norm_num [bracket, lowTest, highTest, eval, evalOpt, tr1, Prob.err, decideBr]

/-- C121: with both bounds and no change of sign on either side, nothing is solved for a volume; a pressure is solved without bracket. -/
theorem C121_not_bounded {S : Type} (t : Trans S) (a b g : ℝ) :
    decideBr t (some a) (some b) (ignoreFail .T .V) g false false = .notBounded ∧ decideBr t (some a) (some b) (ignoreFail .T .P) g false false = .unchanged := by
  constructor <;> rfl

/-! ## The driver -/

/-- Guess methods in the order tried (2927-2934). -/
inductive Guess | last | fixed | stp | igH | shaw | idealL | dadgostar
  deriving DecidableEq

def guesses (gas liquid : Bool) : List Guess :=
  if gas then [.last, .fixed, .stp, .igH, .shaw] else if liquid then [.last, .fixed, .stp, .idealL, .dadgostar] else [.last, .fixed, .stp]

/-- The constants of 3139-3145. -/
noncomputable def stpGuess : Var → ℝ
  | .T => 298.15
  | .P => 101325
  | .V => 0.024465403697038125

/-- One method (3139-3169); `model` are the others, which may fail. `user_guess` is always `None` here (2943). -/
noncomputable def guessOf (iter : Var) (lastConv : Option ℝ) (model : Guess → Option ℝ) : Guess → Option ℝ
  | .last => lastConv
  | .fixed => none
  | .stp => some (stpGuess iter)
  | g => model g

/-- The loop 2936-2948. -/
noncomputable def firstGuess (iter : Var) (lastConv : Option ℝ) (model : Guess → Option ℝ) : List Guess → Option ℝ
  | [] => none
  | g :: gs => match guessOf iter lastConv model g with
    | some x => some x
    | none => firstGuess iter lastConv model gs

/-- C121 (`_fails`): the guesses from enthalpy models are never used, for any kind of phase: the guess is the last converged value or else the constant 298.15 K, 101325 Pa
or 0.02447 m³/mol. -/
theorem C121_guess_fails (gas liquid : Bool) (iter : Var) (lastConv : Option ℝ) (model : Guess → Option ℝ) :
    firstGuess iter lastConv model (guesses gas liquid) = some (lastConv.getD (stpGuess iter)) := by
  unfold guesses
  cases lastConv <;> cases gas <;> cases liquid <;> simp [firstGuess, guessOf]

/-- The tolerance of 2950-2956. -/
noncomputable def ytol (iter : Var) (spec : Spec) (iapws : Bool) (val : ℝ) : Option ℝ :=
  if iapws then none else some (if iter = .T ∧ (spec = .S ∨ spec = .H) then 1e-8 * |val| / 100 else 1e-8 * |val|)

/-- C121: the tolerance is relative to the specified value. -/
theorem C121_tolerance (iter : Var) (spec : Spec) (val y : ℝ) (h : ytol iter spec false val = some y) :
    0 ≤ y ∧ y ≤ 1e-8 * |val| ∧ (∀ c, ytol iter spec false (c * val) = some (|c| * y)) := by
  unfold ytol at h ⊢
  simp only [Bool.false_eq_true, if_false, Option.some.injEq] at h ⊢
  have := abs_nonneg val
  subst h
  refine ⟨by split_ifs <;> positivity, ?_, fun c => ?_⟩
  · split_ifs <;> linarith
  · rw [abs_mul]; split_ifs <;> ring

/-- C121 (`_fails`): a specified enthalpy or entropy of zero, which is the value of the reference state, leaves a tolerance of zero. -/
theorem C121_zero_fails (iter : Var) (spec : Spec) : ytol iter spec false 0 = some 0 := by simp [ytol]

/-! ## Guesses from models -/

/-- What a method offers: enthalpy, entropy without mixing, volume, and temperature from volume and pressure. -/
structure GModel where
  (H S V TV : ℝ → ℝ → ℝ)

/-- The values of `T`, `P`, `V` when the function `err` (3002-3025) reaches line 3028; `none` is an unbound variable. -/
noncomputable def setVars (g : GModel) (fixed iter : Var) (fv x : ℝ) : Option (ℝ × ℝ × Option ℝ) :=
  match fixed, iter with
  | .P, .T => some (x, fv, none)
  | .T, .P => some (fv, x, none)
  | .P, .V => some (g.TV x fv, fv, some x)
  | .V, .P => some (g.TV fv x, x, some fv)
  | .V, .T => none
  | .T, .V => none
  | _, _ => none

/-- `err` (3002-3047): with the entropy of mixing and of pressure. -/
noncomputable def gErr {N : ℕ} (g : GModel) (R Pref : ℝ) (zs : Fin N → ℝ) (fixed iter : Var) (spec : Spec) (fv val x : ℝ) : Option ℝ :=
  (setVars g fixed iter fv x).map fun w =>
    let T := w.1
    let P := w.2.1
    let S := g.S T P - R * (∑ i, if 0 < zs i then zs i * Real.log (zs i) else 0) - R * Real.log (P * (1 / Pref))
    let H := g.H T P
    let V := w.2.2.getD (g.V T P)
    match spec with
    | .H => H - val
    | .S => S - val
    | .G => (H - T * S) - val
    | .U => (H - P * V) - val
    | .A => (H - P * V - T * S) - val

/-- `IG_ENTHALPY` (3055-3070). -/
noncomputable def igModel {N : ℕ} (R Tref : ℝ) (zs : Fin N → ℝ) (cp : Fin N → ℝ → ℝ) : GModel where
  H := fun T _ => ∑ i, zs i * I (cp i) Tref T
  S := fun T _ => ∑ i, zs i * J (cp i) Tref T
  V := fun T P => R * T / P
  TV := fun V P => P * V / R

/-- Ideal gas mixture: the property specified, as function of temperature and pressure. -/
noncomputable def igProp {N : ℕ} (R Tref Pref : ℝ) (zs : Fin N → ℝ) (cp : Fin N → ℝ → ℝ) (spec : Spec) (T P : ℝ) : ℝ :=
  let H := ∑ i, zs i * I (cp i) Tref T
  let S := ∑ i, zs i * (J (cp i) Tref T) - R * ∑ i, zs i * Real.log (zs i) - R * Real.log (P / Pref)
  match spec with
  | .H => H
  | .S => S
  | .G => H - T * S
  | .U => H - R * T
  | .A => H - R * T - T * S

/-- C121: the guess from ideal gas enthalpies solves the ideal gas problem, for the four combinations of variables that include the pressure. -/
theorem C121_ideal_gas {N : ℕ} (R Tref Pref : ℝ) (hR : R ≠ 0) (zs : Fin N → ℝ) (hz : ∀ i, 0 ≤ zs i) (cp : Fin N → ℝ → ℝ) (spec : Spec) (val T P : ℝ) (hP : P ≠ 0) :
    gErr (igModel R Tref zs cp) R Pref zs .P .T spec P val T = some (igProp R Tref Pref zs cp spec T P - val) ∧
    gErr (igModel R Tref zs cp) R Pref zs .T .P spec T val P = some (igProp R Tref Pref zs cp spec T P - val) ∧
    gErr (igModel R Tref zs cp) R Pref zs .P .V spec P val (R * T / P) = some (igProp R Tref Pref zs cp spec T P - val) ∧
    gErr (igModel R Tref zs cp) R Pref zs .V .P spec (R * T / P) val P = some (igProp R Tref Pref zs cp spec T P - val) := by
  have hs : (∑ i, if 0 < zs i then zs i * Real.log (zs i) else 0) = ∑ i, zs i * Real.log (zs i) := by
    refine Finset.sum_congr rfl fun i _ => ?_
    split_ifs with h
    · rfl
    · have : zs i = 0 := le_antisymm (not_lt.1 h) (hz i)
      rw [this, zero_mul]
  have hT : P * (R * T / P) / R = T := by field_simp
  have hV : P * (R * T / P) = R * T := by field_simp
  have hT' : R * T / R = T := by field_simp
  refine ⟨?_, ?_, ?_, ?_⟩ <;>
  · unfold gErr igProp setVars
    simp only [Option.map_some, igModel, hs, hT, hV, hT', Option.getD_none, Option.getD_some, mul_one_div]
    cases spec <;> rfl

theorem hasDeriv_I {c : ℝ → ℝ} (hc : ContinuousOn c (Ioi 0)) {a T : ℝ} (ha : 0 < a) (hT : 0 < T) : HasDerivAt (fun T => I c a T) (c T) T :=
  intervalIntegral.integral_hasDerivAt_right (ii_of hc ha hT)
    (ContinuousOn.stronglyMeasurableAtFilter isOpen_Ioi hc T hT) (hc.continuousAt (isOpen_Ioi.mem_nhds hT))

theorem hasDeriv_J {c : ℝ → ℝ} (hc : ContinuousOn c (Ioi 0)) {a T : ℝ} (ha : 0 < a) (hT : 0 < T) : HasDerivAt (fun T => J c a T) (c T / T) T := by
  have hc' : ContinuousOn (fun t => c t / t) (Ioi 0) := hc.div continuousOn_id fun t ht => ne_of_gt ht
  exact hasDeriv_I (c := fun t => c t / t) hc' ha hT

/-- C121: the model is thermodynamically consistent: `dH = Cp dT`, `dS = Cp/T dT`, `dG = -S dT` at constant pressure, and `dG = V dP` at constant temperature. -/
theorem C121_consistent {N : ℕ} (R Tref Pref : ℝ) (zs : Fin N → ℝ) (cp : Fin N → ℝ → ℝ) (hc : ∀ i, ContinuousOn (cp i) (Ioi 0)) (hr : 0 < Tref) (hp : 0 < Pref)
    (T P : ℝ) (hT : 0 < T) (hP : 0 < P) :
    HasDerivAt (fun T => igProp R Tref Pref zs cp .H T P) (∑ i, zs i * cp i T) T ∧
    HasDerivAt (fun T => igProp R Tref Pref zs cp .S T P) ((∑ i, zs i * cp i T) / T) T ∧
    HasDerivAt (fun T => igProp R Tref Pref zs cp .G T P) (-igProp R Tref Pref zs cp .S T P) T ∧
    HasDerivAt (fun P => igProp R Tref Pref zs cp .G T P) (R * T / P) P := by
  have hH : HasDerivAt (fun T => ∑ i, zs i * I (cp i) Tref T) (∑ i, zs i * cp i T) T :=
    HasDerivAt.fun_sum fun i _ => (hasDeriv_I (hc i) hr hT).const_mul (zs i)
  have hJ : HasDerivAt (fun T => ∑ i, zs i * J (cp i) Tref T) (∑ i, zs i * (cp i T / T)) T :=
    HasDerivAt.fun_sum fun i _ => (hasDeriv_J (hc i) hr hT).const_mul (zs i)
  have hJ' : (∑ i, zs i * (cp i T / T)) = (∑ i, zs i * cp i T) / T := by
    rw [Finset.sum_div]; exact Finset.sum_congr rfl fun i _ => by ring
  rw [hJ'] at hJ
  have hS : HasDerivAt (fun T => igProp R Tref Pref zs cp .S T P) ((∑ i, zs i * cp i T) / T) T := by
    have := (hJ.sub_const (R * ∑ i, zs i * Real.log (zs i))).sub_const (R * Real.log (P / Pref))
    exact this
  refine ⟨hH, hS, ?_, ?_⟩
  · have := hH.fun_sub ((hasDerivAt_id' T).fun_mul hS)
    refine this.congr_deriv ?_
    field_simp
    ring
  · have hl : HasDerivAt (fun P : ℝ => Real.log (P / Pref)) (1 / Pref / (P / Pref)) P := ((hasDerivAt_id' P).div_const Pref).log (by positivity)
    have h1 := ((hl.const_mul R).const_sub (∑ i, zs i * J (cp i) Tref T - R * ∑ i, zs i * Real.log (zs i))).const_mul T
    have h2 := h1.const_sub (∑ i, zs i * I (cp i) Tref T)
    refine h2.congr_deriv ?_
    field_simp
    

/-- Equal parts of two gases of constant heat capacity. -/
noncomputable def half : Fin 2 → ℝ := fun _ => 1 / 2

example : gErr (igModel 8 300 half fun _ _ => 30) 8 100000 half .P .T .H 100000 1500 350 =
    some (igProp 8 300 100000 half (fun _ _ => 30) .H 350 100000 - 1500) :=
  (C121_ideal_gas 8 300 100000 (by norm_num) half (fun _ => by norm_num [half]) (fun _ _ => 30) .H 1500 350 100000 (by norm_num)).1

example : HasDerivAt (fun T => igProp 8 300 100000 half (fun _ _ => 30) .H T 100000) (∑ i, half i * 30) 350 :=
  (C121_consistent 8 300 100000 half (fun _ _ => 30) (fun _ => continuousOn_const) (by norm_num) (by norm_num) 350 100000 (by norm_num) (by norm_num)).1

/-- C121 (`_fails`): the two combinations of temperature and volume that the documentation of the variables allows always fail, with every model: the pressure is used before
it is set, and the fixed temperature is overwritten. -/
theorem C121_TV_fails {N : ℕ} (g : GModel) (R Pref : ℝ) (zs : Fin N → ℝ) (spec : Spec) (fv val x : ℝ) :
    gErr g R Pref zs .V .T spec fv val x = none ∧ gErr g R Pref zs .T .V spec fv val x = none := ⟨rfl, rfl⟩

end Verif.OnePhase
