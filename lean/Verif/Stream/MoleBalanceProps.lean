import Verif.Stream.MoleBalance
import Mathlib.Tactic.FinCases

/-!
# C05, C06, C45: what `mole_balance` guarantees
-/

namespace Verif.MoleBalance

open Finset

variable {N a b : ℕ}

/-! ## Specification -/

/-- Mole flow of component `j` in a stream, as a user reads it off the specifications: computed
flows when there is no `ns`, else the first of `ns`, `ms`, `Qls`, `Qgs` that gives entry `j`. -/
def flowAt (f : Strm N) (j : Fin N) : Option ℚ :=
  match f.ns, f.nsCalc with
  | none, some c => some (c j)
  | ns, _ =>
    ((((ns.bind (fun l => l j)).or ((f.ms.bind (fun l => l j)).map (fun m => 1000 * m / f.MW j))).or
      ((f.Qls.bind (fun l => l j)).map (fun q => q / f.Vl j))).or
      ((f.Qgs.bind (fun l => l j)).map (fun q => q / f.Vg)))

/-- Component `j` balances: every flow is known and inlets and outlets have the same sum. -/
def Balanced (ins : Fin a → Strm N) (outs : Fin b → Strm N) (j : Fin N) : Prop :=
  ∃ x : Fin a → ℚ, ∃ y : Fin b → ℚ, (∀ i, flowAt (ins i) j = some (x i)) ∧
    (∀ i, flowAt (outs i) j = some (y i)) ∧ ∑ i, x i = ∑ i, y i

/-- Every component flow of the stream is known. -/
def Known (f : Strm N) : Prop := ∀ j, ∃ x, flowAt f j = some x

/-- No component flow of the stream is known. -/
def Blank (f : Strm N) : Prop := ∀ j, flowAt f j = none

/-! ## Helper lemmas -/

theorem fillFrom_at (ns src : Option (Fin N → Option ℚ)) (conv : Fin N → ℚ → ℚ) (j : Fin N) :
    (fillFrom ns src conv).bind (fun l => l j)
      = (ns.bind (fun l => l j)).or ((src.bind (fun l => l j)).map (conv j)) := by
  unfold fillFrom
  cases src with
  | none => simp
  | some q =>
    simp only
    split_ifs with h
    · cases ns <;> simp
    · have : q j = none := by
        by_contra hne
        exact h ⟨j, Option.isSome_iff_ne_none.2 hne⟩
      simp [this]

theorem or_of_isSome {α : Type} {x y : Option α} (h : x.isSome = true) : x.or y = x := by
  cases x <;> simp_all

/-- With the default flags the lists used by the algorithm are the user-level flows. -/
theorem effAt_eq_flowAt (f : Strm N) (j : Fin N) : effAt true true f j = flowAt f j := by
  unfold effAt effNs flowAt
  cases hns : f.ns with
  | none =>
    cases hc : f.nsCalc with
    | none =>
      simp only [baseNs, isUnknown, hns, hc]
      simp [processNs, fillFrom_at]
    | some c => simp [baseNs, isUnknown, hns, hc]
  | some l =>
    simp only [baseNs, isUnknown, hns]
    by_cases hall : ∀ j, (l j).isSome = true
    · have hj := hall j
      simp only [hall, implies_true, decide_true, Bool.not_true, Bool.false_and, Bool.false_eq_true,
        if_false, Option.bind_some]
      rw [or_of_isSome hj, or_of_isSome hj, or_of_isSome hj]
    · simp only [hall, decide_false, Bool.not_false, Bool.and_self, if_true]
      simp [processNs, fillFrom_at]

theorem known_of_not_unknown (f : Strm N) (h : isUnknown true f = false) : Known f := by
  intro j
  rw [← effAt_eq_flowAt]
  unfold effAt effNs
  simp only [h, Bool.false_and, Bool.false_eq_true, if_false]
  unfold isUnknown at h
  cases hb : baseNs true f with
  | none => simp [hb] at h
  | some l =>
    simp only [hb, Bool.not_eq_false', decide_eq_true_eq] at h
    exact ⟨(l j).get (h j), by simp⟩

theorem knownSum_eq (s : Fin a → Strm N) (j : Fin N) :
    knownSum true true s j = ∑ i, (flowAt (s i) j).getD 0 := by
  simp [knownSum, effAt_eq_flowAt]

theorem lastIdx_spec (p : Fin a → Bool) (h : 0 < (univ.filter (fun i => p i = true)).card) :
    ∃ o, lastIdx p = some o ∧ p o = true := by
  obtain ⟨i, hi⟩ := card_pos.1 h
  have hpi : p i = true := by simpa using hi
  cases hl : lastIdx p with
  | none =>
    exfalso
    have := List.find?_eq_none.1 hl i (by simp)
    exact this hpi
  | some o => exact ⟨o, rfl, List.find?_some hl⟩

theorem flowAt_setNs (f : Strm N) (l : Fin N → ℚ) (j : Fin N) :
    flowAt (setNs f l) j = some (l j) := by
  simp [flowAt, setNs]

/-- The unique unknown stream. -/
theorem sole_unknown (s : Fin a → Strm N) (h : countUnknown true s = 1) :
    ∃ o, lastIdx (fun i => isUnknown true (s i)) = some o ∧ isUnknown true (s o) = true ∧
      ∀ i, i ≠ o → isUnknown true (s i) = false := by
  obtain ⟨o, ho1, ho2⟩ := lastIdx_spec (fun i => isUnknown true (s i)) (by
    simp only [countUnknown] at h; omega)
  refine ⟨o, ho1, ho2, ?_⟩
  intro i hi
  by_contra hne
  have hne' : isUnknown true (s i) = true := by simpa using hne
  obtain ⟨z, hz⟩ := card_eq_one.1 h
  have h1 : i ∈ univ.filter (fun i => isUnknown true (s i) = true) := by simp [hne']
  have h2 : o ∈ univ.filter (fun i => isUnknown true (s i) = true) := by simp [ho2]
  rw [hz, mem_singleton] at h1 h2
  exact hi (h1.trans h2.symm)

theorem none_unknown (s : Fin a → Strm N) (h : countUnknown true s = 0) :
    ∀ i, isUnknown true (s i) = false := by
  intro i
  have := filter_eq_empty_iff.1 (card_eq_zero.1 h) (mem_univ i)
  simpa using this

/-! ## C05 -/

/-- **C05 (partial), unknown outlet.** All inlets known and exactly one outlet not: if that outlet
has no known component flow at all, or is the only outlet, `mole_balance` succeeds and every
component balances. Missing for the full claim: an unknown outlet that has some known entries next
to other outlets, where the claim is false (`C05_unbalanced_when_partly_known`). -/
theorem C05_single_unknown_outlet_partial (ins : Fin a → Strm N) (outs : Fin b → Strm N)
    (hi : countUnknown true ins = 0) (ho : countUnknown true outs = 1)
    (hblank : b = 1 ∨ ∀ i, isUnknown true (outs i) = true → Blank (outs i)) :
    let r := moleBalance true true ins outs
    r.ret = true ∧ r.ins = ins ∧ ∀ j, Balanced r.ins r.outs j := by
  obtain ⟨o, ho1, ho2, ho3⟩ := sole_unknown outs ho
  have hik := none_unknown ins hi
  have hin : ∀ i j, ∃ x, flowAt (ins i) j = some x := fun i => known_of_not_unknown _ (hik i)
  simp only [moleBalance, hi, ho, one_ne_zero, and_false, if_false, and_self, if_true, ho1, true_and]
  intro j
  choose x hx using fun i => hin i j
  have hsumx : knownSum true true ins j = ∑ i, x i := by
    rw [knownSum_eq]; exact sum_congr rfl (fun i _ => by rw [hx i]; rfl)
  by_cases hb : b = 1
  · refine ⟨x, fun _ => ∑ i, x i, hx, ?_, ?_⟩
    · intro i
      have : i = o := by subst hb; exact Subsingleton.elim _ _
      simp [this, hb, flowAt_setNs, hsumx]
    · subst hb; simp
  · have hbl : Blank (outs o) := by
      rcases hblank with h | h
      · exact absurd h hb
      · exact h o ho2
    have hout : ∀ i, i ≠ o → ∃ y, flowAt (outs i) j = some y := fun i hne =>
      known_of_not_unknown _ (ho3 i hne) j
    let y : Fin b → ℚ := fun i => if i = o then knownSum true true ins j - knownSum true true outs j
      else (flowAt (outs i) j).getD 0
    refine ⟨x, y, hx, ?_, ?_⟩
    · intro i
      by_cases h : i = o
      · simp [h, y, hb, flowAt_setNs]
      · obtain ⟨v, hv⟩ := hout i h
        simp [h, y, hv]
    · have h1 : ∑ i, y i = y o + ∑ i ∈ univ.erase o, y i :=
        (add_sum_erase univ y (mem_univ o)).symm
      have h2 : knownSum true true outs j = ∑ i ∈ univ.erase o, y i := by
        rw [knownSum_eq, ← add_sum_erase univ _ (mem_univ o), hbl j]
        simp only [Option.getD_none, zero_add]
        apply sum_congr rfl
        intro i hi'
        have : i ≠ o := (mem_erase.1 hi').1
        simp [y, this]
      have h3 : y o = knownSum true true ins j - knownSum true true outs j := by simp [y]
      rw [h1, h3, h2, hsumx]; ring

/-- **C05 (partial), unknown inlet**: the mirror image. -/
theorem C05_single_unknown_inlet_partial (ins : Fin a → Strm N) (outs : Fin b → Strm N)
    (hi : countUnknown true ins = 1) (ho : countUnknown true outs = 0)
    (hblank : a = 1 ∨ ∀ i, isUnknown true (ins i) = true → Blank (ins i)) :
    let r := moleBalance true true ins outs
    r.ret = true ∧ r.outs = outs ∧ ∀ j, Balanced r.ins r.outs j := by
  obtain ⟨o, ho1, ho2, ho3⟩ := sole_unknown ins hi
  have hik := none_unknown outs ho
  have hin : ∀ i j, ∃ x, flowAt (outs i) j = some x := fun i => known_of_not_unknown _ (hik i)
  simp only [moleBalance, hi, ho, one_ne_zero, zero_ne_one, false_and, and_self, if_false, if_true, ho1,
    true_and]
  intro j
  choose x hx using fun i => hin i j
  have hsumx : knownSum true true outs j = ∑ i, x i := by
    rw [knownSum_eq]; exact sum_congr rfl (fun i _ => by rw [hx i]; rfl)
  by_cases hb : a = 1
  · refine ⟨fun _ => ∑ i, x i, x, ?_, hx, ?_⟩
    · intro i
      have : i = o := by subst hb; exact Subsingleton.elim _ _
      simp [this, hb, flowAt_setNs, hsumx]
    · subst hb; simp
  · have hbl : Blank (ins o) := by
      rcases hblank with h | h
      · exact absurd h hb
      · exact h o ho2
    have hout : ∀ i, i ≠ o → ∃ y, flowAt (ins i) j = some y := fun i hne =>
      known_of_not_unknown _ (ho3 i hne) j
    let y : Fin a → ℚ := fun i => if i = o then knownSum true true outs j - knownSum true true ins j
      else (flowAt (ins i) j).getD 0
    refine ⟨y, x, ?_, hx, ?_⟩
    · intro i
      by_cases h : i = o
      · simp [h, y, hb, flowAt_setNs]
      · obtain ⟨v, hv⟩ := hout i h
        simp [h, y, hv]
    · have h1 : ∑ i, y i = y o + ∑ i ∈ univ.erase o, y i :=
        (add_sum_erase univ y (mem_univ o)).symm
      have h2 : knownSum true true ins j = ∑ i ∈ univ.erase o, y i := by
        rw [knownSum_eq, ← add_sum_erase univ _ (mem_univ o), hbl j]
        simp only [Option.getD_none, zero_add]
        apply sum_congr rfl
        intro i hi'
        have : i ≠ o := (mem_erase.1 hi').1
        simp [y, this]
      have h3 : y o = knownSum true true outs j - knownSum true true ins j := by simp [y]
      rw [h1, h3, h2, hsumx]; ring

/-- **C05.** The stream that was solved for holds its flows in one basis only, mole flows, together with their sum. -/
theorem C05_solved_basis (ins : Fin a → Strm N) (outs : Fin b → Strm N) :
    (countUnknown true ins = 0 → countUnknown true outs = 1 → ∀ o, isUnknown true (outs o) = true →
      ∃ l : Fin N → ℚ, (moleBalance true true ins outs).outs o = 
        { outs o with
          ns := some (fun j => some (l j)), ms := none, Qls := none, Qgs := none, nsCalc := none, total := some (∑ j, l j) })
    ∧ (countUnknown true ins = 1 → countUnknown true outs = 0 → ∀ o, isUnknown true (ins o) = true →
      ∃ l : Fin N → ℚ, (moleBalance true true ins outs).ins o = 
        { ins o with
          ns := some (fun j => some (l j)), ms := none, Qls := none, Qgs := none, nsCalc := none, total := some (∑ j, l j) }) := by
  constructor
  · intro hi ho o hu
    obtain ⟨o', ho1, ho2, ho3⟩ := sole_unknown outs ho
    have : o = o' := by
      by_contra hne
      rw [ho3 o hne] at hu
      exact absurd hu (by simp)
    subst this
    simp only [moleBalance, hi, ho, one_ne_zero, and_false, if_false, and_self, if_true, ho1]
    exact ⟨_, rfl⟩
  · intro hi ho o hu
    obtain ⟨o', ho1, ho2, ho3⟩ := sole_unknown ins hi
    have : o = o' := by
      by_contra hne
      rw [ho3 o hne] at hu
      exact absurd hu (by simp)
    subst this
    simp only [moleBalance, hi, ho, one_ne_zero, zero_ne_one, false_and, if_false, and_self, if_true, ho1]
    exact ⟨_, rfl⟩

/-- A stream given by mole flows only. -/
def molar (l : Fin N → Option ℚ) : Strm N :=
  { ns := some l, ms := none, Qls := none, Qgs := none, nsCalc := none, total := none,
    MW := fun _ => 1, Vl := fun _ => 1, Vg := 1 }

/-- A stream about which nothing is known. -/
def blank : Strm N :=
  { ns := none, ms := none, Qls := none, Qgs := none, nsCalc := none, total := none,
    MW := fun _ => 1, Vl := fun _ => 1, Vg := 1 }

/-- Non-vacuity of the single-unknown theorems: two inlets, a known and a blank outlet. -/
example : countUnknown true ![molar ![some 3, some 4], molar ![some 1, some (1/2)]] = 0 ∧
    countUnknown true ![molar ![some 2, some 1], (blank : Strm 2)] = 1 ∧
    (∀ i, isUnknown true (![molar ![some 2, some 1], (blank : Strm 2)] i) = true →
      Blank (![molar ![some 2, some 1], (blank : Strm 2)] i)) := by
  refine ⟨by decide, by decide, ?_⟩
  intro i
  fin_cases i
  · intro h; exact absurd h (by decide)
  · intro _ j; rfl

/-- **C05 fails** when the unknown outlet has a known entry and is not alone: with inlet `[3, 4]`
and outlets `[2, 1]`, `[1, None]` the call reports success but sets the second outlet to `[0, 3]`,
so 3 mol/s enter and 2 mol/s leave. -/
theorem C05_unbalanced_when_partly_known :
    ∃ (ins : Fin 1 → Strm 2) (outs : Fin 2 → Strm 2),
      (moleBalance true true ins outs).ret = true ∧
      ¬ Balanced (moleBalance true true ins outs).ins (moleBalance true true ins outs).outs 0 := by
  refine ⟨![molar ![some 3, some 4]], ![molar ![some 2, some 1], molar ![some 1, none]], ?_, ?_⟩
  · decide +kernel
  · rintro ⟨x, y, hx, hy, h⟩
    have e0 : flowAt ((moleBalance true true ![molar ![some 3, some 4]]
        ![molar ![some 2, some 1], molar ![some 1, none]]).ins 0) 0 = some 3 := by decide +kernel
    have e1 : flowAt ((moleBalance true true ![molar ![some 3, some 4]]
        ![molar ![some 2, some 1], molar ![some 1, none]]).outs 0) 0 = some 2 := by decide +kernel
    have e2 : flowAt ((moleBalance true true ![molar ![some 3, some 4]]
        ![molar ![some 2, some 1], molar ![some 1, none]]).outs 1) 0 = some 0 := by decide +kernel
    have h0 := hx 0; have h1 := hy 0; have h2 := hy 1
    rw [e0] at h0; rw [e1] at h1; rw [e2] at h2
    simp only [Option.some.injEq] at h0 h1 h2
    simp only [Fin.sum_univ_succ, Fin.sum_univ_zero, Finset.univ_unique, Finset.sum_singleton] at h
    have h3 : x 0 = y 0 + y 1 := by
      have : ∑ i, x i = ∑ i, y i := by
        simpa [Fin.sum_univ_succ] using h
      simpa [Fin.sum_univ_succ] using this
    rw [← h0, ← h1, ← h2] at h3
    norm_num at h3

/-! ### Component-wise stage -/

/-- A stream whose missing entries can be written: some component list is present and the
conversion constants are non-zero. -/
structure Writable (f : Strm N) : Prop where
  hasList : f.ns ≠ none ∨ f.ms ≠ none ∨ f.Qls ≠ none ∨ f.Qgs ≠ none
  mw : ∀ j, f.MW j ≠ 0
  vl : ∀ j, f.Vl j ≠ 0
  vg : f.Vg ≠ 0

theorem flowAt_writeBack_some (f : Strm N) (x : Fin N → Option ℚ) (j : Fin N) (v : ℚ)
    (hw : Writable f) (hx : x j = some v) (hmiss : flowAt f j = none) :
    flowAt (writeBack f x) j = some v := by
  have hc : f.ns = none → f.nsCalc = none := by
    intro h
    cases hcc : f.nsCalc with
    | none => rfl
    | some c => simp [flowAt, h, hcc] at hmiss
  unfold writeBack
  have mw := hw.mw j; have vl := hw.vl j; have vg := hw.vg
  cases hns : f.ns with
  | some l => simp [flowAt, hx]
  | none =>
    have hcalc := hc hns
    simp only [flowAt, hns, hcalc, Option.bind_none, Option.none_or, Option.or_eq_none_iff,
      Option.map_eq_none_iff] at hmiss
    obtain ⟨⟨h1, h2⟩, h3⟩ := hmiss
    cases hms : f.ms with
    | some l => simp [flowAt, hcalc, hx]; field_simp
    | none =>
      cases hq : f.Qls with
      | some l => simp [flowAt, hcalc, hx, hns, hms]; field_simp
      | none =>
        cases hg : f.Qgs with
        | some l => simp [flowAt, hcalc, hx, hns, hms, hq]; field_simp
        | none =>
          rcases hw.hasList with h | h | h | h
          · exact absurd hns h
          · exact absurd hms h
          · exact absurd hq h
          · exact absurd hg h

theorem flowAt_writeBack_none (f : Strm N) (x : Fin N → Option ℚ) (j : Fin N)
    (hx : x j = none) : flowAt (writeBack f x) j = flowAt f j := by
  unfold writeBack
  cases hns : f.ns with
  | some l => simp [flowAt, hx, hns]
  | none =>
    cases hms : f.ms with
    | some l => cases hc : f.nsCalc <;> simp [flowAt, hx, hns, hms, hc]
    | none =>
      cases hq : f.Qls with
      | some l => cases hc : f.nsCalc <;> simp [flowAt, hx, hns, hms, hc, hq]
      | none =>
        cases hg : f.Qgs with
        | some l => cases hc : f.nsCalc <;> simp [flowAt, hx, hns, hms, hc, hq, hg]
        | none => simp [flowAt]

/-- **C05, component-wise stage.** When a component is missing in exactly one stream, that stream
has a writable list, after the stage the component balances exactly. -/
theorem C05_componentwise_balances (ins : Fin a → Strm N) (outs : Fin b → Strm N) (j : Fin N)
    (hwi : ∀ i, flowAt (ins i) j = none → Writable (ins i))
    (hwo : ∀ i, flowAt (outs i) j = none → Writable (outs i))
    (h1 : (univ.filter (fun i => flowAt (ins i) j = none)).card
      + (univ.filter (fun i => flowAt (outs i) j = none)).card = 1) :
    Balanced (componentwise true true ins outs).ins (componentwise true true ins outs).outs j := by
  have hmi : missing true true ins j = univ.filter (fun i => flowAt (ins i) j = none) := by
    simp [missing, effAt_eq_flowAt]
  have hmo : missing true true outs j = univ.filter (fun i => flowAt (outs i) j = none) := by
    simp [missing, effAt_eq_flowAt]
  have hsole : soleMissing true true ins outs j = true := by
    simp only [soleMissing, hmi, hmo, h1, decide_true]
  set D := knownSum true true ins j - knownSum true true outs j with hD
  have hin : ∀ i, flowAt ((componentwise true true ins outs).ins i) j
      = if flowAt (ins i) j = none then some (-D) else flowAt (ins i) j := by
    intro i
    by_cases h : flowAt (ins i) j = none
    · rw [if_pos h]
      exact flowAt_writeBack_some (ins i) _ j (-D) (hwi i h) (by simp [hsole, hmi, h, hD]) h
    · rw [if_neg h]
      exact flowAt_writeBack_none (ins i) _ j (by simp [hmi, h])
  have hout : ∀ i, flowAt ((componentwise true true ins outs).outs i) j
      = if flowAt (outs i) j = none then some D else flowAt (outs i) j := by
    intro i
    by_cases h : flowAt (outs i) j = none
    · rw [if_pos h]
      exact flowAt_writeBack_some (outs i) _ j D (hwo i h) (by simp [hsole, hmo, h, hD]) h
    · rw [if_neg h]
      exact flowAt_writeBack_none (outs i) _ j (by simp [hmo, h])
  refine ⟨fun i => (if flowAt (ins i) j = none then -D else 0) + (flowAt (ins i) j).getD 0,
    fun i => (if flowAt (outs i) j = none then D else 0) + (flowAt (outs i) j).getD 0, ?_, ?_, ?_⟩
  · intro i
    rw [hin i]
    cases h : flowAt (ins i) j <;> simp [h]
  · intro i
    rw [hout i]
    cases h : flowAt (outs i) j <;> simp [h]
  · rw [sum_add_distrib, sum_add_distrib, ← knownSum_eq, ← knownSum_eq, ← sum_filter, ← sum_filter,
      sum_const, sum_const, nsmul_eq_mul, nsmul_eq_mul]
    rcases (by omega : ((univ.filter (fun i => flowAt (ins i) j = none)).card = 1 ∧
        (univ.filter (fun i => flowAt (outs i) j = none)).card = 0) ∨
        ((univ.filter (fun i => flowAt (ins i) j = none)).card = 0 ∧
        (univ.filter (fun i => flowAt (outs i) j = none)).card = 1)) with ⟨e1, e2⟩ | ⟨e1, e2⟩ <;>
      rw [e1, e2, hD] <;> push_cast <;> ring

/-! ## C06: known flows are not touched -/

/-- **C06, component-wise stage.** The component-wise stage never changes a known flow. -/
theorem C06_componentwise_keeps_known (ins : Fin a → Strm N) (outs : Fin b → Strm N) (j : Fin N) :
    (∀ i x, flowAt (ins i) j = some x →
      flowAt ((componentwise true true ins outs).ins i) j = some x) ∧
    (∀ i x, flowAt (outs i) j = some x →
      flowAt ((componentwise true true ins outs).outs i) j = some x) := by
  constructor
  · intro i x hx
    rw [← hx]
    exact flowAt_writeBack_none (ins i) _ j (by simp [missing, effAt_eq_flowAt, hx])
  · intro i x hx
    rw [← hx]
    exact flowAt_writeBack_none (outs i) _ j (by simp [missing, effAt_eq_flowAt, hx])

theorem flowAt_total (f : Strm N) (t : Option ℚ) (j : Fin N) :
    flowAt { f with total := t } j = flowAt f j := rfl

/-- **C06 (partial).** `mole_balance` never changes a known component flow of any stream, unless it
takes the single-unknown-stream branch with that one stream partly known. Missing for the full
claim: exactly that case, where it is false (`C06_overwrites_known`). -/
theorem C06_known_flows_kept_partial (ins : Fin a → Strm N) (outs : Fin b → Strm N)
    (hp : countUnknown true ins + countUnknown true outs = 1 →
      (∀ i, isUnknown true (ins i) = true → Blank (ins i)) ∧
      (∀ i, isUnknown true (outs i) = true → Blank (outs i))) (j : Fin N) :
    (∀ i x, flowAt (ins i) j = some x →
      flowAt ((moleBalance true true ins outs).ins i) j = some x) ∧
    (∀ i x, flowAt (outs i) j = some x →
      flowAt ((moleBalance true true ins outs).outs i) j = some x) := by
  unfold moleBalance
  by_cases h1 : countUnknown true ins = 0 ∧ countUnknown true outs = 0
  · simp only [h1, and_self, if_true]
    exact ⟨fun i x h => h, fun i x h => h⟩
  by_cases h2 : countUnknown true outs = 1 ∧ countUnknown true ins = 0
  · obtain ⟨o, ho1, ho2, _⟩ := sole_unknown outs h2.1
    simp only [h1, h2, and_self, if_false, if_true, ho1]
    refine ⟨fun i x h => h, fun i x h => ?_⟩
    by_cases hio : i = o
    · have := (hp (by omega)).2 o ho2 j
      rw [hio, this] at h; simp at h
    · simp [hio, h]
  by_cases h3 : countUnknown true ins = 1 ∧ countUnknown true outs = 0
  · obtain ⟨o, ho1, ho2, _⟩ := sole_unknown ins h3.1
    rw [if_neg h1, if_neg h2, if_pos h3]
    simp only [ho1]
    refine ⟨fun i x h => ?_, fun i x h => h⟩
    by_cases hio : i = o
    · have := (hp (by omega)).1 o ho2 j
      rw [hio, this] at h; simp at h
    · simp [hio, h]
  rw [if_neg h1, if_neg h2, if_neg h3]
  by_cases h4 : (componentwise true true ins outs).ret = true
  · simp only [h4, if_true]
    exact C06_componentwise_keeps_known ins outs j
  · simp only [h4, Bool.false_eq_true, if_false]
    unfold totalStage
    simp only
    constructor
    · intro i x h
      split_ifs
      · dsimp only; split_ifs <;> exact h
      · exact h
    · intro i x h
      split_ifs
      · dsimp only; split_ifs <;> exact h
      · exact h

example : countUnknown true ![molar ![some 3, none], molar ![some 1, some (1/2)]] +
    countUnknown true ![molar ![some 2, none], (blank : Strm 2)] = 3 := by decide

/-- **C06 fails** for a single partly known outlet: inlet `[3, 4]` and outlet `[2, None]` turn the
outlet's known 2 into 3. -/
theorem C06_overwrites_known :
    ∃ (ins : Fin 1 → Strm 2) (outs : Fin 1 → Strm 2),
      flowAt (outs 0) 0 = some 2 ∧
      flowAt ((moleBalance true true ins outs).outs 0) 0 = some 3 := by
  refine ⟨![molar ![some 3, some 4]], ![molar ![some 2, none]], by decide +kernel, by decide +kernel⟩

/-! ## C45: reported progress is real -/

/-- **C45 fails**: the component-wise stage reports progress although the stream it wants to fill
has no list to write to, so nothing changes and a caller iterating while progress is reported never
stops. Outlets: `[1, None]` and a blank stream, inlet `[3, None]`. -/
theorem C45_progress_without_change :
    ∃ (ins : Fin 1 → Strm 2) (outs : Fin 2 → Strm 2),
      (moleBalance true true ins outs).ret = true ∧
      (∀ i j, flowAt ((moleBalance true true ins outs).ins i) j = flowAt (ins i) j) ∧
      (∀ i j, flowAt ((moleBalance true true ins outs).outs i) j = flowAt (outs i) j) := by
  refine ⟨![molar ![some 3, none]], ![molar ![some 1, none], blank], by decide +kernel,
    by decide +kernel, by decide +kernel⟩

/-- **C45 (partial).** When the component-wise stage reports progress and every stream has a
writable list, at least one previously unknown flow is known afterwards. -/
theorem C45_progress_is_real_partial (ins : Fin a → Strm N) (outs : Fin b → Strm N)
    (hwi : ∀ i, Writable (ins i)) (hwo : ∀ i, Writable (outs i))
    (h : (componentwise true true ins outs).ret = true) :
    ∃ j, (∃ i, flowAt (ins i) j = none ∧ flowAt ((componentwise true true ins outs).ins i) j ≠ none)
      ∨ (∃ i, flowAt (outs i) j = none ∧
          flowAt ((componentwise true true ins outs).outs i) j ≠ none) := by
  simp only [componentwise, decide_eq_true_eq] at h
  obtain ⟨j, hj⟩ := h
  have hj' := hj
  simp only [soleMissing, missing, effAt_eq_flowAt, decide_eq_true_eq] at hj
  obtain ⟨x, y, hx, hy, -⟩ := C05_componentwise_balances ins outs j (fun i _ => hwi i)
    (fun i _ => hwo i) hj
  refine ⟨j, ?_⟩
  rcases (by omega : 0 < (univ.filter (fun i => flowAt (ins i) j = none)).card ∨
    0 < (univ.filter (fun i => flowAt (outs i) j = none)).card) with h | h
  · obtain ⟨i, hi⟩ := card_pos.1 h
    exact Or.inl ⟨i, by simpa using hi, by rw [hx i]; simp⟩
  · obtain ⟨i, hi⟩ := card_pos.1 h
    exact Or.inr ⟨i, by simpa using hi, by rw [hy i]; simp⟩

example : (componentwise true true ![molar ![some 3, none]] ![molar ![none, none],
    molar ![some 1, none]]).ret = true ∧ Writable (molar ![some 3, none]) := by
  refine ⟨by decide +kernel, ⟨Or.inl (by simp [molar]), ?_, ?_, ?_⟩⟩ <;> simp [molar]

/-! ## Total mole flow stage -/

/-- **C05, total-flow stage.** When exactly one stream lacks a total mole flow, afterwards all totals
are known and balance. -/
theorem C05_total_stage_balances (ins : Fin a → Strm N) (outs : Fin b → Strm N)
    (h : (univ.filter (fun i => (ins i).total = none)).card
      + (univ.filter (fun i => (outs i).total = none)).card = 1) :
    ∃ x : Fin a → ℚ, ∃ y : Fin b → ℚ, (totalStage ins outs).ret = true ∧
      (∀ i, ((totalStage ins outs).ins i).total = some (x i)) ∧
      (∀ i, ((totalStage ins outs).outs i).total = some (y i)) ∧ ∑ i, x i = ∑ i, y i := by
  set D := (∑ i, ((ins i).total).getD 0) - ∑ i, ((outs i).total).getD 0 with hD
  refine ⟨fun i => (if (ins i).total = none then -D else 0) + ((ins i).total).getD 0,
    fun i => (if (outs i).total = none then D else 0) + ((outs i).total).getD 0, ?_, ?_, ?_, ?_⟩
  · rcases (by omega : ((univ.filter (fun i => (ins i).total = none)).card = 1 ∧
        (univ.filter (fun i => (outs i).total = none)).card = 0) ∨
        ((univ.filter (fun i => (ins i).total = none)).card = 0 ∧
        (univ.filter (fun i => (outs i).total = none)).card = 1)) with ⟨e1, e2⟩ | ⟨e1, e2⟩ <;>
      simp [totalStage, totals, e1, e2]
  · intro i
    cases ht : (ins i).total with
    | none =>
      have e1 : 0 < (univ.filter (fun i => (ins i).total = none)).card :=
        card_pos.2 ⟨i, by simp [ht]⟩
      have e1' : (univ.filter (fun i => (ins i).total = none)).card = 1 := by omega
      have e2 : (univ.filter (fun i => (outs i).total = none)).card = 0 := by omega
      simp [totalStage, totals, e1', e2, ht, hD]
    | some t =>
      simp only [totalStage]
      split_ifs <;> simp_all
  · intro i
    cases ht : (outs i).total with
    | none =>
      have e1 : 0 < (univ.filter (fun i => (outs i).total = none)).card :=
        card_pos.2 ⟨i, by simp [ht]⟩
      have e1' : (univ.filter (fun i => (outs i).total = none)).card = 1 := by omega
      have e2 : (univ.filter (fun i => (ins i).total = none)).card = 0 := by omega
      simp [totalStage, totals, e1', e2, ht, hD]
    | some t =>
      simp only [totalStage]
      split_ifs <;> simp_all
  · rw [sum_add_distrib, sum_add_distrib, ← sum_filter, ← sum_filter, sum_const, sum_const,
      nsmul_eq_mul, nsmul_eq_mul]
    rcases (by omega : ((univ.filter (fun i => (ins i).total = none)).card = 1 ∧
        (univ.filter (fun i => (outs i).total = none)).card = 0) ∨
        ((univ.filter (fun i => (ins i).total = none)).card = 0 ∧
        (univ.filter (fun i => (outs i).total = none)).card = 1)) with ⟨e1, e2⟩ | ⟨e1, e2⟩ <;>
      rw [e1, e2, hD] <;> push_cast <;> ring

end Verif.MoleBalance
