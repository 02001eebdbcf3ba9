import Verif.Stream.Args
import Mathlib.Data.Finset.Card
import Mathlib.Data.Fintype.Sum
import Mathlib.Algebra.BigOperators.Group.Finset.Basic

/-!
# Properties of `StreamArgs` histories: C01, C02, C03, C42, C43
-/

namespace Verif.Stream

open Finset

/-! ## Specification (independent of the model's counters) -/

/-- Number of thermodynamic-state specifications an object holds. -/
def numState (s : Args) : Nat := (univ.filter (fun v : SV => s.st v ≠ none)).card

/-- Number of composition specifications an object holds. -/
def numComp (s : Args) : Nat := (univ.filter (fun c : CV => s.cf c ≠ none)).card

/-- Number of flow specifications: component-flow lists `ns, ms, Qls, Qgs` plus total flows
`n, m, Q, Ql, Qg`. -/
def numFlow (s : Args) : Nat :=
  (univ.filter (fun c : CV => (c = .ns ∨ c = .ms ∨ c = .Qls ∨ c = .Qgs) ∧ s.cf c ≠ none)).card
    + (univ.filter (fun f : FV => s.fl f ≠ none)).card

/-! ## Helper lemmas -/

section helpers

variable {α β : Type} [DecidableEq α] [Fintype α]

theorem card_filter_eq_count (f : α → Option β) (l : List α) (hn : l.Nodup) (hl : ∀ a, a ∈ l) :
    (univ.filter (fun a : α => f a ≠ none)).card = countSome f l := by
  have h1 : (univ : Finset α) = l.toFinset := by
    ext a; simp [hl a]
  rw [h1, countSome, List.countP_eq_length_filter,
    ← List.toFinset_card_of_nodup (hn.filter (fun k => (f k).isSome))]
  congr 1
  ext a
  simp [Option.isSome_iff_ne_none]

omit [Fintype α] in
theorem upd_same (f : α → β) (k : α) (v : β) : upd f k v k = v := by simp [upd]

omit [Fintype α] in
theorem upd_other (f : α → β) {k j : α} (v : β) (h : j ≠ k) : upd f k v j = f j := by simp [upd, h]

theorem card_upd_le_succ (f : α → Option β) (k : α) (x : Option β) :
    (univ.filter (fun a : α => upd f k x a ≠ none)).card
      ≤ (univ.filter (fun a : α => f a ≠ none)).card + 1 := by
  refine le_trans (card_le_card (t := insert k (univ.filter (fun a : α => f a ≠ none))) ?_)
    (card_insert_le _ _)
  intro a ha
  by_cases h : a = k
  · simp [h]
  · simp only [mem_filter, mem_univ, true_and, upd_other f x h] at ha
    simp [ha]

theorem card_upd_le_of_some (f : α → Option β) (k : α) (x : Option β) (hk : f k ≠ none) :
    (univ.filter (fun a : α => upd f k x a ≠ none)).card
      ≤ (univ.filter (fun a : α => f a ≠ none)).card := by
  apply card_le_card
  intro a ha
  by_cases h : a = k
  · subst h; simp [hk]
  · simp only [mem_filter, mem_univ, true_and, upd_other f x h] at ha
    simp [ha]

theorem card_upd_none_le (f : α → Option β) (k : α) :
    (univ.filter (fun a : α => upd f k none a ≠ none)).card
      ≤ (univ.filter (fun a : α => f a ≠ none)).card := by
  apply card_le_card
  intro a ha
  by_cases h : a = k
  · subst h; simp [upd_same] at ha
  · simp only [mem_filter, mem_univ, true_and, upd_other f _ h] at ha
    simp [ha]

theorem card_upd_const_none (k : α) (x : Option β) :
    (univ.filter (fun a : α => upd (fun _ => (none : Option β)) k x a ≠ none)).card ≤ 1 := by
  refine le_trans (card_le_card (t := {k}) ?_) (by simp)
  intro a ha
  by_cases h : a = k
  · simp [h]
  · simp [upd, h] at ha

end helpers

theorem numState_eq (s : Args) : numState s = countSome s.st stateSpecifiedKeys := by
  apply card_filter_eq_count
  · decide
  · intro a; cases a <;> decide

theorem numState_eq_vars (s : Args) (h : s.st .H_reactive = none) :
    numState s = specifiedStateVars s := by
  rw [numState_eq]
  simp [countSome, specifiedStateVars, stateSpecifiedKeys, specifiedStateVarsKeys,
    List.countP_cons, h]
  omega

theorem flowSpecified_iff (s : Args) : flowSpecified s = true ↔ 0 < numFlow s := by
  have h : 0 < numFlow s ↔ ((∃ c, (c = CV.ns ∨ c = .ms ∨ c = .Qls ∨ c = .Qgs) ∧ s.cf c ≠ none)
      ∨ ∃ f, s.fl f ≠ none) := by
    simp only [numFlow, Nat.add_pos_iff_pos_or_pos, card_pos]
    constructor
    · rintro (⟨c, hc⟩ | ⟨f, hf⟩)
      · left; exact ⟨c, by simpa using hc⟩
      · right; exact ⟨f, by simpa using hf⟩
    · rintro (⟨c, hc⟩ | ⟨f, hf⟩)
      · left; exact ⟨c, by simpa using hc⟩
      · right; exact ⟨f, by simpa using hf⟩
  rw [h]
  simp only [flowSpecified, flowSpecKeys, flowKeySet, List.any_cons, List.any_nil, Bool.or_false,
    Bool.or_eq_true, Option.isSome_iff_ne_none]
  constructor
  · intro hh
    rcases hh with h | h | h | h | h | h | h | h | h
    · exact Or.inl ⟨.ns, by simp, h⟩
    · exact Or.inl ⟨.ms, by simp, h⟩
    · exact Or.inl ⟨.Qls, by simp, h⟩
    · exact Or.inl ⟨.Qgs, by simp, h⟩
    · exact Or.inr ⟨_, h⟩
    · exact Or.inr ⟨_, h⟩
    · exact Or.inr ⟨_, h⟩
    · exact Or.inr ⟨_, h⟩
    · exact Or.inr ⟨_, h⟩
  · rintro (⟨c, hc, h⟩ | ⟨f, h⟩)
    · rcases hc with rfl | rfl | rfl | rfl <;> simp [h]
    · cases f <;> simp [h]

/-! ## C01: at most two state specifications -/

/-- An operation that cannot over-specify the state: anything but a non-`None` `H_reactive`, and
`energy` / `energy_reactive` only while a flow is specified. -/
def Benign (s : Args) : Op → Prop
  | .setState .H_reactive (some _) => False
  | .setState .energy (some _) => 0 < numFlow s
  | .setState .energy_reactive (some _) => 0 < numFlow s
  | _ => True

/-- Every operation of the history is benign in the state it is applied to. -/
def BenignRun : Args → List Op → Prop
  | _, [] => True
  | s, o :: os => Benign s o ∧ BenignRun (step s o).state os

theorem numState_congr {s s' : Args} (h : s'.st = s.st) : numState s' = numState s := by
  simp [numState, h]

theorem setState_inv (s : Args) (v : SV) (x : Option ℚ) (hb : Benign s (.setState v x))
    (hr : s.st .H_reactive = none) (hn : numState s ≤ 2) :
    numState (setState s v x).state ≤ 2 ∧ (setState s v x).state.st .H_reactive = none := by
  cases x with
  | none =>
    constructor
    · exact le_trans (card_upd_none_le s.st v) hn
    · by_cases h : SV.H_reactive = v
      · simp [setState, upd, h]
      · simp [setState, upd, hr]
  | some y =>
    have hv : v ≠ .H_reactive := by
      rintro rfl; exact hb
    have hr' : upd s.st v (some y) .H_reactive = none := by
      rw [upd_other _ _ (Ne.symm hv)]; exact hr
    by_cases hg : stateSetterRaises s v = true
    · simp [setState, hg, hn, hr]
    · simp only [setState, hg]
      refine ⟨?_, by simpa using hr'⟩
      by_cases hown : s.st v = none
      · -- the guard let a new key through, so at most one was set
        have hle : numState s ≤ 1 := by
          have hcnt := numState_eq s
          have hvars := numState_eq_vars s hr
          simp only [stateSetterRaises, hown, Option.isNone_none, Bool.true_and] at hg
          cases hgu : guardOf v with
          | byStateSpecified =>
            simp only [hgu, stateSpecified, beq_iff_eq] at hg
            omega
          | byCount =>
            simp only [hgu, decide_eq_true_eq] at hg
            omega
          | byCountAndFlow =>
            have hf : 0 < numFlow s := by
              cases v <;> simp [guardOf] at hgu <;> exact hb
            simp only [hgu, (flowSpecified_iff s).2 hf, Bool.and_true, decide_eq_true_eq] at hg
            omega
        have := card_upd_le_succ s.st v (some y)
        simp only [numState] at hle ⊢
        simp only [Bool.false_eq_true, if_false]
        omega
      · have := card_upd_le_of_some s.st v (some y) hown
        simp only [numState] at hn ⊢
        simp only [Bool.false_eq_true, if_false]
        omega

theorem step_inv (s : Args) (o : Op) (hb : Benign s o)
    (hr : s.st .H_reactive = none) (hn : numState s ≤ 2) :
    numState (step s o).state ≤ 2 ∧ (step s o).state.st .H_reactive = none := by
  cases o with
  | setState v x => exact setState_inv s v x hb hr hn
  | setComp c x =>
    have h : (setComp s c x).state.st = s.st := by
      unfold setComp; cases x with
      | none => rfl
      | some l => simp only; split_ifs <;> try rfl
                  split <;> [split_ifs <;> rfl; rfl]
    exact ⟨by rw [show step s (.setComp c x) = setComp s c x from rfl, numState_congr h]; exact hn,
      by rw [show step s (.setComp c x) = setComp s c x from rfl, h]; exact hr⟩
  | setFlow f x =>
    have h : (setFlow s f x).state.st = s.st := by
      unfold setFlow; cases x with
      | none => rfl
      | some l => simp only; split <;> [split_ifs <;> rfl; rfl]
    exact ⟨by rw [show step s (.setFlow f x) = setFlow s f x from rfl, numState_congr h]; exact hn,
      by rw [show step s (.setFlow f x) = setFlow s f x from rfl, h]; exact hr⟩
  | clearComposition => exact ⟨hn, hr⟩
  | clearFlow => exact ⟨hn, hr⟩
  | clearState =>
    constructor
    · refine le_trans (card_le_card ?_) hn
      intro a ha
      have ha' := (mem_filter.1 ha).2
      refine mem_filter.2 ⟨mem_univ _, fun h => ha' ?_⟩
      simp only [step, clearStateSpecs]
      split_ifs <;> simp [h]
    · simp [step, clearStateSpecs, hr]

/-- **C01 (partial).** Along every history that never sets `H_reactive` and sets `energy` /
`energy_reactive` only while a flow is specified, the object holds at most two state
specifications. Missing for the full claim: the three keys excluded by `BenignRun`, for which the
claim is false (`C01_energy_overspecifies`, `C01_H_reactive_overspecifies`). -/
theorem C01_at_most_two_state_specs_partial (s : Args) (ops : List Op)
    (hr : s.st .H_reactive = none) (hn : numState s ≤ 2) (hb : BenignRun s ops) :
    numState (run s ops) ≤ 2 := by
  induction ops generalizing s with
  | nil => exact hn
  | cons o os ih =>
    obtain ⟨h1, h2⟩ := hb
    obtain ⟨h3, h4⟩ := step_inv s o h1 hr hn
    exact ih _ h4 h3 h2

/-- An object without any specification. -/
def emptyArgs : Args := ⟨fun _ => none, fun _ => none, fun _ => none, false⟩

/-- Non-vacuity: a history with a real refusal (`H` is refused after `T` and `P`), a clear and a
re-specification, with flow and energy. -/
example : BenignRun emptyArgs
      [.setState .T (some 300), .setFlow .n (some 2), .setState .P (some 100000),
       .setState .H (some 5), .setState .P none, .setState .energy (some 7)]
    ∧ emptyArgs.st .H_reactive = none ∧ numState emptyArgs ≤ 2
    ∧ (step (run emptyArgs [.setState .T (some 300), .setFlow .n (some 2),
        .setState .P (some 100000)]) (.setState .H (some 5))).raised = true
    ∧ numState (run emptyArgs
      [.setState .T (some 300), .setFlow .n (some 2), .setState .P (some 100000),
       .setState .H (some 5), .setState .P none, .setState .energy (some 7)]) = 2 := by
  refine ⟨?_, rfl, by decide, by decide, by decide⟩
  refine ⟨trivial, trivial, trivial, trivial, trivial, ?_, trivial⟩
  show 0 < numFlow _
  decide

/-- **C01 fails** in general: with no flow given yet, `energy` is accepted as a third
specification, and then (because exactly-two is tested) any further one is accepted too. No call
raises. -/
theorem C01_energy_overspecifies :
    ∃ ops : List Op, (∀ k, k ≤ ops.length → ∀ o, ops[k]? = some o →
        (step (run emptyArgs (ops.take k)) o).raised = false)
      ∧ numState (run emptyArgs ops) = 4 := by
  refine ⟨[.setState .T (some 300), .setState .P (some 100000), .setState .energy (some 5),
    .setState .V (some 1)], ?_, by decide⟩
  intro k hk o ho
  have : k = 0 ∨ k = 1 ∨ k = 2 ∨ k = 3 ∨ k = 4 := by simp at hk; omega
  rcases this with rfl | rfl | rfl | rfl | rfl <;> simp at ho <;> subst ho <;> decide

/-- **C01 fails** also through `H_reactive`, which `specified_state_vars` does not count: `T`,
`H_reactive`, then `S` are all accepted. -/
theorem C01_H_reactive_overspecifies :
    ∃ ops : List Op, (∀ k, k ≤ ops.length → ∀ o, ops[k]? = some o →
        (step (run emptyArgs (ops.take k)) o).raised = false)
      ∧ numState (run emptyArgs ops) = 3 := by
  refine ⟨[.setState .T (some 300), .setState .H_reactive (some 10), .setState .S (some 5)],
    ?_, by decide⟩
  intro k hk o ho
  have : k = 0 ∨ k = 1 ∨ k = 2 ∨ k = 3 := by simp at hk; omega
  rcases this with rfl | rfl | rfl | rfl <;> simp at ho <;> subst ho <;> decide

/-- A setter refuses a *new* state specification exactly when two are already present (no
`H_reactive`, flow present): the guards are tight, they do not refuse legitimate edits. -/
theorem C01_setter_refuses_iff (s : Args) (v : SV) (y : ℚ) (hr : s.st .H_reactive = none)
    (hn : numState s ≤ 2) (hf : 0 < numFlow s) :
    (setState s v (some y)).raised = true ↔ (numState s = 2 ∧ s.st v = none) := by
  have hcnt := numState_eq s
  have hvars := numState_eq_vars s hr
  have hfl := (flowSpecified_iff s).2 hf
  have key : stateSetterRaises s v = true ↔ (numState s = 2 ∧ s.st v = none) := by
    cases hg : guardOf v <;>
      simp only [stateSetterRaises, hg, stateSpecified, hfl, Bool.and_true, Bool.and_eq_true,
        Option.isNone_iff_eq_none, beq_iff_eq, decide_eq_true_eq] <;>
      constructor <;> rintro ⟨h1, h2⟩ <;> constructor <;> first | assumption | omega
  by_cases hg : stateSetterRaises s v = true
  · simp [setState, hg, key.1 hg]
  · have : ¬ (numState s = 2 ∧ s.st v = none) := fun h => hg (key.2 h)
    simp [setState, hg]
    simpa using this

/-- An accepted state value can be read back, and no other state key changes. -/
theorem C01_setter_stores (s : Args) (v w : SV) (x : Option ℚ)
    (h : (setState s v x).raised = false) :
    (setState s v x).state.st w = if w = v then x else s.st w := by
  cases x with
  | none => rfl
  | some y =>
    by_cases hg : stateSetterRaises s v = true
    · simp [setState, hg] at h
    · simp [setState, hg, upd]

/-! ## C02: exclusivity of composition and flow specifications -/

/-- Exceptions leave the object unchanged. -/
theorem C02_raise_changes_nothing (s : Args) (o : Op) (h : (step s o).raised = true) :
    (step s o).state = s := by
  cases o with
  | setState v x =>
    cases x with
    | none => simp [step, setState] at h
    | some y =>
      by_cases hg : stateSetterRaises s v = true
      · simp [step, setState, hg]
      · simp [step, setState, hg] at h
  | setComp c x =>
    cases x with
    | none => simp [step, setComp] at h
    | some l =>
      simp only [step, setComp] at h ⊢
      split_ifs at h ⊢
      split at h
      · rename_i c' heq
        by_cases h3 : c' = c
        · simp [h3] at h
        · simp [h3]
      · simp at h
  | setFlow f x =>
    cases x with
    | none => simp [step, setFlow] at h
    | some y =>
      simp only [step, setFlow] at h ⊢
      split at h
      · rename_i k heq
        by_cases h3 : k = .scal f
        · simp [h3] at h
        · simp [h3]
      · simp at h
  | clearComposition => simp [step] at h
  | clearState => simp [step] at h
  | clearFlow => simp [step] at h

/-- The exclusivity invariant. -/
def Exclusive (s : Args) : Prop := numComp s ≤ 1 ∧ numFlow s ≤ 1

theorem numFlow_split (cf : CV → Option CList) :
    (univ.filter (fun c : CV => (c = .ns ∨ c = .ms ∨ c = .Qls ∨ c = .Qgs) ∧ cf c ≠ none)).card
      ≤ (univ.filter (fun c : CV => cf c ≠ none)).card := by
  apply card_le_card
  intro a ha
  simp at ha ⊢
  exact ha.2

theorem compositionSpec_none (s : Args) (h : compositionSpec s = none) : ∀ c, s.cf c = none := by
  intro c
  have := List.find?_eq_none.1 h c (by cases c <;> decide)
  simpa using this

theorem flowSpec_none (s : Args) (h : flowSpec s = none) : numFlow s = 0 := by
  have hf : flowSpecified s = false := by
    have := List.find?_eq_none.1 h
    simp only [flowSpecified, List.any_eq_false]
    intro x hx; exact this x hx
  by_contra hne
  have := (flowSpecified_iff s).2 (Nat.pos_of_ne_zero hne)
  simp [hf] at this

theorem flowSpec_some_set (s : Args) (k : FlowKey) (h : flowSpec s = some k) :
    flowKeySet s k = true := List.find?_some h

theorem clearFlowLists_flow (cf : CV → Option CList) :
    (univ.filter (fun c : CV => (c = .ns ∨ c = .ms ∨ c = .Qls ∨ c = .Qgs) ∧
      clearFlowLists cf c ≠ none)).card = 0 := by
  rw [card_eq_zero, filter_eq_empty_iff]
  intro c _ ⟨hc, h⟩
  apply h
  rcases hc with rfl | rfl | rfl | rfl <;> rfl

theorem clearFlowLists_comp_le (cf : CV → Option CList) :
    (univ.filter (fun c : CV => clearFlowLists cf c ≠ none)).card
      ≤ (univ.filter (fun c : CV => cf c ≠ none)).card := by
  apply card_le_card
  intro a ha
  have ha' := (mem_filter.1 ha).2
  refine mem_filter.2 ⟨mem_univ _, fun h => ha' ?_⟩
  simp only [clearFlowLists]
  split_ifs <;> simp [h]

/-- A freshly replaced composition record has at most one entry, and no flow list unless the key
itself is one. -/
theorem flow_of_upd_nonflow (c : CV) (x : Option CList) (hc : isFlowList c = false) :
    (univ.filter (fun d : CV => (d = .ns ∨ d = .ms ∨ d = .Qls ∨ d = .Qgs) ∧
      upd (fun _ => (none : Option CList)) c x d ≠ none)).card = 0 := by
  rw [card_eq_zero, filter_eq_empty_iff]
  rintro d _ ⟨hd, h⟩
  apply h
  have : d ≠ c := by
    rintro rfl
    rcases hd with rfl | rfl | rfl | rfl <;> simp [isFlowList] at hc
  simp [upd, this]

theorem step_exclusive (s : Args) (o : Op) (hm : s.multi = false) (h : Exclusive s) :
    Exclusive (step s o).state ∧ (step s o).state.multi = false := by
  obtain ⟨hc1, hf1⟩ := h
  cases o with
  | setState v x =>
    have h1 : (setState s v x).state.cf = s.cf := by
      cases x <;> simp only [setState] <;> split_ifs <;> rfl
    have h2 : (setState s v x).state.fl = s.fl := by
      cases x <;> simp only [setState] <;> split_ifs <;> rfl
    have h3 : (setState s v x).state.multi = s.multi := by
      cases x <;> simp only [setState] <;> split_ifs <;> rfl
    refine ⟨⟨?_, ?_⟩, ?_⟩
    · simpa only [step, numComp, h1] using hc1
    · simpa only [step, numFlow, h1, h2] using hf1
    · simpa only [step, h3] using hm
  | clearComposition =>
    refine ⟨⟨by simp [step, clearCompositionSpec, numComp], ?_⟩, hm⟩
    refine le_trans (Nat.add_le_add_right ?_ _) hf1
    simp [step, clearCompositionSpec]
  | clearState => exact ⟨⟨hc1, hf1⟩, hm⟩
  | clearFlow =>
    refine ⟨⟨?_, ?_⟩, hm⟩
    · exact le_trans (clearFlowLists_comp_le s.cf) hc1
    · have h0 := clearFlowLists_flow s.cf
      have h1 : (univ.filter (fun f : FV => (fun _ => none : FV → Option ℚ) f ≠ none)).card = 0 := by
        simp
      exact le_of_eq_of_le (congrArg₂ (· + ·) h0 h1) (by omega)
  | setComp c x =>
    cases x with
    | none =>
      refine ⟨⟨le_trans (card_upd_none_le s.cf c) hc1, ?_⟩, hm⟩
      refine le_trans ?_ hf1
      simp only [step, setComp, numFlow]
      apply Nat.add_le_add_right
      apply card_le_card
      intro a ha
      have ha' := (mem_filter.1 ha).2
      refine mem_filter.2 ⟨mem_univ _, ha'.1, fun h => ha'.2 ?_⟩
      by_cases hac : a = c
      · simp [upd, hac]
      · simp [upd, h]
    | some l =>
      by_cases hfl : isFlowList c = true
      · simp only [step, setComp, hm, hfl, if_true, Bool.false_eq_true, if_false]
        refine ⟨⟨card_upd_const_none c _, ?_⟩, trivial⟩
        simp only [numFlow]
        have := numFlow_split (upd (fun _ => (none : Option CList)) c (storedList c l))
        have h2 := card_upd_const_none c (storedList c l)
        simp
        simp at this h2
        omega
      · have hfl' : isFlowList c = false := by simpa using hfl
        have key : Exclusive { s with cf := upd (fun _ => none) c (storedList c l) } := by
          refine ⟨card_upd_const_none c _, ?_⟩
          simp only [numFlow, flow_of_upd_nonflow c _ hfl']
          simp only [numFlow] at hf1
          omega
        simp only [step, setComp, hm, hfl', Bool.false_eq_true, if_false]
        cases hcs : compositionSpec s with
        | none => exact ⟨key, rfl⟩
        | some c' =>
          simp only
          split_ifs
          · exact ⟨⟨hc1, hf1⟩, hm⟩
          · exact ⟨key, rfl⟩
  | setFlow f x =>
    cases x with
    | none =>
      refine ⟨⟨hc1, ?_⟩, hm⟩
      refine le_trans ?_ hf1
      simp only [step, setFlow, numFlow]
      exact Nat.add_le_add_left (card_upd_none_le s.fl f) _
    | some y =>
      have key : Exclusive
          { s with cf := clearFlowLists s.cf, fl := upd (fun _ => none) f (some y) } := by
        refine ⟨le_trans (clearFlowLists_comp_le s.cf) hc1, ?_⟩
        simp only [numFlow, clearFlowLists_flow, zero_add]
        exact card_upd_const_none f (some y)
      simp only [step, setFlow]
      cases hfs : flowSpec s with
      | none => exact ⟨key, hm⟩
      | some k =>
        simp only
        split_ifs
        · exact ⟨⟨hc1, hf1⟩, hm⟩
        · exact ⟨key, hm⟩

/-- **C02.** With a single composition basis, every history of public edits keeps at most one
composition specification and at most one flow specification. -/
theorem C02_composition_and_flow_exclusive (s : Args) (ops : List Op) (hm : s.multi = false)
    (h : Exclusive s) : numComp (run s ops) ≤ 1 ∧ numFlow (run s ops) ≤ 1 := by
  induction ops generalizing s with
  | nil => exact h
  | cons o os ih =>
    obtain ⟨h1, h2⟩ := step_exclusive s o hm h
    exact ih _ h2 h1

example : Exclusive emptyArgs ∧ emptyArgs.multi = false
    ∧ numComp (run emptyArgs [.setComp .zs (some [some (1/2), some (1/2)]), .setFlow .m (some 3),
        .setComp .ns (some [some 1, none])]) = 1
    ∧ numFlow (run emptyArgs [.setComp .zs (some [some (1/2), some (1/2)]), .setFlow .m (some 3),
        .setComp .ns (some [some 1, none])]) = 1
    ∧ (step (run emptyArgs [.setComp .zs (some [some (1/2), some (1/2)]), .setFlow .m (some 3)])
        (.setFlow .Ql (some 1))).raised = true := by
  refine ⟨⟨by decide, by decide⟩, rfl, by decide, by decide, by decide⟩

/-- An accepted non-empty component flow list can be read back and is then the only composition
and the only flow specification. -/
theorem C02_flow_list_wins (s : Args) (c : CV) (l : CList) (hm : s.multi = false)
    (hc : c = .ns ∨ c = .ms ∨ c = .Qls ∨ c = .Qgs) (hl : l ≠ []) :
    (setComp s c (some l)).raised = false
    ∧ (setComp s c (some l)).state.cf c = some l
    ∧ (∀ d, d ≠ c → (setComp s c (some l)).state.cf d = none)
    ∧ (∀ f, (setComp s c (some l)).state.fl f = none) := by
  have hs : storedList c l = some l := by
    rcases hc with rfl | rfl | rfl | rfl <;> simp [storedList, emptyToNone, hl]
  have hfl : isFlowList c = true := by rcases hc with rfl | rfl | rfl | rfl <;> rfl
  simp only [setComp, hm, hfl, hs, if_true, Bool.false_eq_true, if_false, true_and]
  refine ⟨upd_same _ _ _, fun d hd => by simp [upd, hd], fun _ => trivial⟩

/-- A fraction list (`zs`, `ws`, `Vfls`, `Vfgs`) is refused exactly when a different composition
specification is present. -/
theorem C02_fraction_setter_refuses_iff (s : Args) (c : CV) (l : CList) (hm : s.multi = false)
    (hc : c = .zs ∨ c = .ws ∨ c = .Vfls ∨ c = .Vfgs) (h1 : numComp s ≤ 1) :
    (setComp s c (some l)).raised = true ↔ ∃ d, d ≠ c ∧ s.cf d ≠ none := by
  have hfl : isFlowList c = false := by rcases hc with rfl | rfl | rfl | rfl <;> rfl
  simp only [setComp, hm, hfl, Bool.false_eq_true, if_false]
  cases hcs : compositionSpec s with
  | none =>
    simp only [Bool.false_eq_true, false_iff, not_exists, not_and, not_not]
    intro d _; exact compositionSpec_none s hcs d
  | some c' =>
    have hset : s.cf c' ≠ none := by
      have := List.find?_some hcs
      simpa [Option.isSome_iff_ne_none] using this
    by_cases hcc : c' = c
    · subst hcc
      simp only [ne_eq, not_true_eq_false, if_false, Bool.false_eq_true, false_iff, not_exists,
        not_and, not_not]
      intro d hd
      by_contra hdn
      have h2 : ({c', d} : Finset CV) ⊆ univ.filter (fun c : CV => s.cf c ≠ none) := by
        intro e he
        simp only [mem_insert, mem_singleton] at he
        rcases he with rfl | rfl <;> simp [hset, hdn]
      have h3 := card_le_card h2
      rw [card_pair (Ne.symm hd)] at h3
      simp only [numComp] at h1
      omega
    · simp only [ne_eq, hcc, not_false_eq_true, if_true, true_iff]
      exact ⟨c', hcc, hset⟩

/-! ## C42: the `clear_*` methods -/

/-- `clear_composition_spec` and `clear_flow_spec` remove every composition / flow
specification. -/
theorem C42_clear_composition_and_flow (s : Args) :
    numComp (clearCompositionSpec s) = 0 ∧ numFlow (clearFlowSpec s) = 0 := by
  constructor
  · simp [numComp, clearCompositionSpec]
  · have h1 : (univ.filter (fun f : FV => (fun _ => none : FV → Option ℚ) f ≠ none)).card = 0 := by
      simp
    exact congrArg₂ (· + ·) (clearFlowLists_flow s.cf) h1

/-- **C42 (partial).** `clear_state_specs` removes every state specification provided
`H_reactive` was not set. The full claim (no proviso) is false:
`C42_clear_state_keeps_H_reactive`. -/
theorem C42_clear_state_specs_partial (s : Args) (h : s.st .H_reactive = none) :
    numState (clearStateSpecs s) = 0 := by
  rw [numState, card_eq_zero, filter_eq_empty_iff]
  intro v _ hv
  apply hv
  simp only [clearStateSpecs]
  cases v <;> simp [specifiedStateVarsKeys, h]

/-- After `clear_state_specs` an `H_reactive` specification is still there, so the object is not
clean and the next two specifications make three. -/
theorem C42_clear_state_keeps_H_reactive :
    ∃ s : Args, numState s = 1 ∧ numState (clearStateSpecs s) = 1
      ∧ numState (run (clearStateSpecs s) [.setState .S (some 1), .setState .H_mass (some 1)]) = 3 := by
  refine ⟨(setState emptyArgs .H_reactive (some 3)).state, by decide, by decide, by decide⟩

example : numState (run emptyArgs [.setState .T (some 300), .setState .P (some 5)]) = 2 ∧
    (run emptyArgs [.setState .T (some 300), .setState .P (some 5)]).st .H_reactive = none := by
  decide

/-! ## C03: the constructor keeps what it is given -/

/-- **C03 (partial).** Every specification other than `H_reactive` passed to a constructor call
with at most one composition and at most one flow specification is stored unchanged. Missing for
the full claim: `H_reactive`, for which it is false (`C03_H_reactive_dropped`). -/
theorem C03_constructor_keeps_partial (rec : Args → Option Args) (g : Given) (s : Args)
    (h : ctor rec g = some s) (hc : ctorCompositionSpecs g ≤ 1) (hf : ctorFlowSpecs g ≤ 1) :
    (∀ v, v ≠ .H_reactive → s.st v = g.st v) ∧ s.cf = g.cf ∧ s.fl = g.fl ∧ s.multi = g.multi := by
  have h0 : ¬ (1 < ctorFlowSpecs g ∨ 1 < ctorCompositionSpecs g) := by omega
  simp only [ctor, h0, if_false] at h
  split_ifs at h
  simp only [Option.some.injEq] at h
  subst h
  exact ⟨fun v hv => by simp [initSpecs, hv], rfl, rfl, rfl⟩

/-- The constructor never rejects at most two state, one composition and one flow
specification. -/
theorem C03_constructor_accepts (rec : Args → Option Args) (g : Given)
    (hs : ctorStateSpecs g ≤ 2) (hc : ctorCompositionSpecs g ≤ 1) (hf : ctorFlowSpecs g ≤ 1) :
    ctor rec g ≠ none := by
  have h0 : ¬ (1 < ctorFlowSpecs g ∨ 1 < ctorCompositionSpecs g) := by omega
  have h1 : ¬ (1 < ctorCompositionSpecs g ∧ g.multi = false) := by omega
  have h2 : ¬ (2 < ctorStateSpecs g) := by omega
  simp only [ctor, h0, h1, h2, if_false]
  exact Option.some_ne_none _

/-- **C03 fails** for `H_reactive`: whatever is passed is dropped (the stored value is the
`energy_reactive` argument). -/
theorem C03_H_reactive_dropped (rec : Args → Option Args) (x : ℚ) :
    ∃ g : Given, g.st .H_reactive = some x ∧
      ∃ s, ctor rec g = some s ∧ s.st .H_reactive = none ∧ numState s = 1 := by
  let g : Given := ⟨fun v => if v = .H_reactive then some x else if v = .T then some 300 else none,
    fun _ => none, fun _ => none, false⟩
  refine ⟨g, by simp [g], ?_⟩
  refine ⟨initSpecs g, ?_, ?_, ?_⟩
  · simp [ctor, ctorFlowSpecs, ctorCompositionSpecs, ctorStateSpecs, countSome,
      stateSpecifiedKeys, compositionSpecKeys, List.countP_cons, g]
  · simp [initSpecs, g]
  · simp only [numState_eq, initSpecs, countSome, stateSpecifiedKeys, g]
    simp [List.countP_cons]

/-- A call with `T` and `energy_reactive` (two specifications) stores three, so the object is
no longer seen as fully specified. -/
theorem C03_energy_reactive_duplicated (rec : Args → Option Args) :
    ∃ g : Given, ctorStateSpecs g = 2 ∧ ∃ s, ctor rec g = some s ∧ numState s = 3
      ∧ stateSpecified s = false := by
  let g : Given := ⟨fun v => if v = .energy_reactive then some 5 else if v = .T then some 300
    else none, fun _ => none, fun _ => none, false⟩
  refine ⟨g, by decide, initSpecs g, ?_, by decide, by decide⟩
  simp [ctor, ctorFlowSpecs, ctorCompositionSpecs, ctorStateSpecs, countSome,
      stateSpecifiedKeys, compositionSpecKeys, List.countP_cons, g]

/-- **C03 (partial), copy.** `copy()` of an object without `H_reactive`/`energy_reactive` and
with at most one composition and one flow specification and at most two state specifications is
equal to it. -/
theorem C03_copy_partial (rec : Args → Option Args) (s : Args)
    (hr : s.st .H_reactive = none) (he : s.st .energy_reactive = none)
    (hn : numState s ≤ 2) (hc : numComp s ≤ 1) (hf : numFlow s ≤ 1) :
    copy rec s = some s := by
  have hcc : ctorCompositionSpecs { st := s.st, cf := s.cf, fl := s.fl, multi := s.multi } ≤ 1 := by
    rw [ctorCompositionSpecs, ← card_filter_eq_count s.cf compositionSpecKeys (by decide)
      (by intro a; cases a <;> decide)]
    exact hc
  have hff : ctorFlowSpecs { st := s.st, cf := s.cf, fl := s.fl, multi := s.multi } ≤ 1 := by
    have h2 : countSome s.fl [.n, .m, .Q, .Ql, .Qg] =
        (univ.filter (fun f : FV => s.fl f ≠ none)).card :=
      (card_filter_eq_count s.fl _ (by decide) (by intro a; cases a <;> decide)).symm
    have h3 : countSome s.cf [.ns, .ms, .Qls, .Qgs] =
        (univ.filter (fun c : CV => (c = .ns ∨ c = .ms ∨ c = .Qls ∨ c = .Qgs) ∧
          s.cf c ≠ none)).card := by
      rw [countSome, List.countP_eq_length_filter, ← List.toFinset_card_of_nodup
        (List.Nodup.filter (fun k => (s.cf k).isSome) (by decide))]
      congr 1
      ext a
      simp [Option.isSome_iff_ne_none]
    simp only [ctorFlowSpecs, h2, h3]
    exact hf
  have hss : ctorStateSpecs { st := s.st, cf := s.cf, fl := s.fl, multi := s.multi } ≤ 2 := by
    rw [ctorStateSpecs, ← numState_eq]; exact hn
  have h0 : ¬ (1 < ctorFlowSpecs { st := s.st, cf := s.cf, fl := s.fl, multi := s.multi } ∨
      1 < ctorCompositionSpecs { st := s.st, cf := s.cf, fl := s.fl, multi := s.multi }) := by omega
  have h1 : ¬ (1 < ctorCompositionSpecs { st := s.st, cf := s.cf, fl := s.fl, multi := s.multi } ∧
      s.multi = false) := by omega
  have h2 : ¬ (2 < ctorStateSpecs { st := s.st, cf := s.cf, fl := s.fl, multi := s.multi }) := by
    omega
  simp only [copy, ctor, h0, h1, h2, if_false, Option.some.injEq]
  cases s
  simp only [initSpecs, Args.mk.injEq, and_true]
  funext v
  by_cases hv : v = .H_reactive
  · subst hv
    simp only at hr he
    simp [hr, he]
  · simp [hv]

example : copy (fun _ => none) (run emptyArgs [.setState .T (some 300), .setState .P (some 5),
      .setComp .ns (some [some 1, some 2])])
    = some (run emptyArgs [.setState .T (some 300), .setState .P (some 5),
      .setComp .ns (some [some 1, some 2])]) := by
  apply C03_copy_partial <;> decide

/-- `copy()` silently loses an `H_reactive` specification made with the setter. -/
theorem C03_copy_drops_H_reactive (rec : Args → Option Args) :
    ∃ s s' : Args, s.st .H_reactive = some 3 ∧ copy rec s = some s' ∧ s'.st .H_reactive = none := by
  let t : Args := ⟨upd (fun _ => none) .H_reactive (some 3), fun _ => none, fun _ => none, false⟩
  refine ⟨t, initSpecs ⟨t.st, t.cf, t.fl, t.multi⟩, by decide, ?_, by decide⟩
  simp [copy, ctor, ctorFlowSpecs, ctorCompositionSpecs, ctorStateSpecs, countSome,
      stateSpecifiedKeys, compositionSpecKeys, List.countP_cons, t, upd]

/-! ## C43: the constructor and contradictory flow specifications -/

/-- The constructor accepts two different total flows whenever the flow reconciliation does (it
never looks at `Ql`/`Qg`, see `Verif.Stream.Reconcile`); the composition count, by contrast, is
enforced. -/
theorem C43_constructor_rejects_second_composition (rec : Args → Option Args) (g : Given)
    (hm : g.multi = false) (hc : 2 ≤ (univ.filter (fun c : CV => g.cf c ≠ none)).card) :
    ctor rec g = none := by
  rw [card_filter_eq_count g.cf compositionSpecKeys (by decide)
    (by intro a; cases a <;> decide)] at hc
  have h1 : 1 < ctorCompositionSpecs g ∧ g.multi = false := ⟨hc, hm⟩
  simp only [ctor, h1, and_self, if_true]
  split <;> rfl

/-- More than two state specifications are rejected by the constructor. -/
theorem C43_constructor_rejects_third_state (rec : Args → Option Args) (g : Given)
    (hc : 3 ≤ (univ.filter (fun v : SV => g.st v ≠ none)).card) :
    ctor rec g = none := by
  rw [card_filter_eq_count g.st stateSpecifiedKeys (by decide)
    (by intro a; cases a <;> decide)] at hc
  have h1 : 2 < ctorStateSpecs g := hc
  simp only [ctor, h1, if_true]
  split
  · rfl
  · split_ifs <;> rfl

end Verif.Stream
