import Verif.Stream.ArgsProps
import Mathlib.Algebra.Order.Field.Rat
import Mathlib.Algebra.Order.Field.Basic
import Mathlib.Algebra.BigOperators.Group.List.Basic
import Mathlib.Tactic.Ring
import Mathlib.Tactic.Linarith
import Mathlib.Tactic.FieldSimp

/-!
# Model of `StreamArgs.reconcile_flows` (`/repo/thermo/stream.py` 1289-1396): C43, C44
-/

namespace Verif.Stream

/-- The counting loop (stream.py 1341-1349 and 1357-1365): running sum of the known entries, number
of unknown entries, index of the last unknown entry. -/
def scanFrom : Nat → CList → ℚ × Nat × Option Nat → ℚ × Nat × Option Nat
  | _, [], acc => acc
  | i, none :: l, (c, m, _) => scanFrom (i + 1) l (c, m + 1, some i)
  | i, some v :: l, (c, m, ix) => scanFrom (i + 1) l (c + v, m, ix)

/-- The loop started at `calc = 0.0; missing = 0; missing_idx = None`. -/
def scan (l : CList) : ℚ × Nat × Option Nat := scanFrom 0 l (0, 0, none)

/-- Reconciling a total with a component list (stream.py 1340-1354 for `n, ns`; 1356-1370 for
`m, ms`). `none`: an exception (inconsistent, or division by a zero total). -/
def fillTotal (tol n : ℚ) (l : CList) : Option CList :=
  match scan l with
  | (known, 0, _) => if n = 0 then none else if tol < |(known - n) / n| then none else some l
  | (known, 1, some i) => some (l.set i (some (n - known)))
  | _ => some l

/-- Component-by-component comparison of `ns` with `ms` (stream.py 1377-1383).
`property_molar_to_mass(m, MW)` is `1000*m/MW` (package `chemicals`). `none`: an exception. An index
past the end of `ns` or `MWs` raises `IndexError` where `ms` has a known entry. -/
def matchMoles (tol : ℚ) : CList → CList → List ℚ → Option CList
  | ns, [], _ => some ns
  | [], none :: ms, MWs => matchMoles tol [] ms MWs.tail
  | n :: ns, none :: ms, MWs => (matchMoles tol ns ms MWs.tail).map (n :: ·)
  | [], some _ :: _, _ => none
  | _ :: _, some _ :: _, [] => none
  | n :: ns, some m :: ms, MW :: MWs =>
    if MW = 0 then none else
      let ni := 1000 * m / MW
      match n with
      | none => (matchMoles tol ns ms MWs).map (some ni :: ·)
      | some n => if ni = 0 then none else if tol < |(n - ni) / ni| then none
          else (matchMoles tol ns ms MWs).map (some ni :: ·)

/-- `reconcile_flows` (stream.py 1289-1396). `MWs = none`: no flasher available (1372-1376, returns
without raising). `mix` is `solve_flow_composition_mix` of package `chemicals`
(`none` when it raises, which is swallowed, 1385-1396). -/
def reconcileFlows (tol : ℚ) (MWs : Option (List ℚ)) (mix : Args → Option CList) (s : Args) :
    Option Args :=
  -- 1330-1337
  if (s.fl .n).isSome ∧ ((s.fl .m).isSome ∨ (s.fl .Q).isSome) then none
  else if (s.fl .m).isSome ∧ (s.fl .Q).isSome then none
  else
    -- 1340-1354
    match (match s.fl .n, s.cf .ns with
      | some n, some ns => (fillTotal tol n ns).map some
      | _, ns => some ns) with
    | none => none
    | some ns =>
      -- 1356-1370
      match (match s.fl .m, s.cf .ms with
        | some m, some ms => (fillTotal tol m ms).map some
        | _, ms => some ms) with
      | none => none
      | some ms =>
        -- 1371-1383
        match ns, ms, MWs with
        | some _, some _, none => some { s with cf := upd (upd s.cf .ns ns) .ms ms }
        | some nl, some ml, some MW =>
          match matchMoles tol nl ml MW with
          | none => none
          | some nl' =>
            let s' := { s with cf := upd (upd s.cf .ns (some nl')) .ms ms }
            -- 1385-1396: the condition holds as `ns` and `ms` are both present
            match mix s' with
            | some r => some { s' with cf := upd s'.cf .ns (some r) }
            | none => some s'
        | ns, ms, MWs =>
          let s' := { s with cf := upd (upd s.cf .ns ns) .ms ms }
          if ((s.cf .zs).isSome ∨ ns.isSome) ∧ ((s.cf .ws).isSome ∨ ms.isSome) ∧
              ((s.fl .m).isSome ∨ (s.fl .n).isSome ∨ ns.isSome ∨ ms.isSome) ∧ MWs.isSome then
            match mix s' with
            | some r => some { s' with cf := upd s'.cf .ns (some r) }
            | none => some s'
          else some s'

/-! ## C44: completing a component list from a total -/

/-- Sum of the known entries. -/
def knownSum (l : CList) : ℚ := (l.filterMap id).sum

/-- Number of unknown entries. -/
def unknowns (l : CList) : Nat := l.count none

theorem scanFrom_sum (l : CList) (i : Nat) (acc : ℚ × Nat × Option Nat) :
    (scanFrom i l acc).1 = acc.1 + knownSum l := by
  induction l generalizing i acc with
  | nil => simp [scanFrom, knownSum]
  | cons x l ih =>
    obtain ⟨c, m, ix⟩ := acc
    cases x with
    | none => simp [scanFrom, ih, knownSum]
    | some v => simp [scanFrom, ih, knownSum]; ring

theorem scanFrom_count (l : CList) (i : Nat) (acc : ℚ × Nat × Option Nat) :
    (scanFrom i l acc).2.1 = acc.2.1 + unknowns l := by
  induction l generalizing i acc with
  | nil => simp [scanFrom, unknowns]
  | cons x l ih =>
    obtain ⟨c, m, ix⟩ := acc
    cases x with
    | none => simp [scanFrom, ih, unknowns, List.count_cons]; omega
    | some v => simp [scanFrom, ih, unknowns, List.count_cons]

/-- The recorded index is the position of an unknown entry. -/
theorem scanFrom_idx (l : CList) (i : Nat) (acc : ℚ × Nat × Option Nat) (hpos : 0 < unknowns l) :
    ∃ j, (scanFrom i l acc).2.2 = some (i + j) ∧ l[j]? = some none := by
  induction l generalizing i acc with
  | nil => simp [unknowns] at hpos
  | cons x l ih =>
    obtain ⟨c, m, ix⟩ := acc
    by_cases hl : 0 < unknowns l
    · cases x with
      | none =>
        obtain ⟨j, h1, h2⟩ := ih (i + 1) (c, m + 1, some i) hl
        exact ⟨j + 1, by simp [scanFrom, h1]; omega, by simpa using h2⟩
      | some v =>
        obtain ⟨j, h1, h2⟩ := ih (i + 1) (c + v, m, ix) hl
        exact ⟨j + 1, by simp [scanFrom, h1]; omega, by simpa using h2⟩
    · cases x with
      | some v => simp [unknowns, List.count_cons] at hpos hl; exact absurd hpos (by simpa using hl)
      | none =>
        refine ⟨0, ?_, by simp⟩
        have hz : ∀ (l : CList) (i : Nat) (acc : ℚ × Nat × Option Nat), unknowns l = 0 →
            (scanFrom i l acc).2.2 = acc.2.2 := by
          intro l
          induction l with
          | nil => intro i acc _; simp [scanFrom]
          | cons y l ih2 =>
            intro i acc h
            obtain ⟨c, m, ix⟩ := acc
            cases y with
            | none => simp [unknowns, List.count_cons] at h
            | some v =>
              simp only [scanFrom]
              exact ih2 _ _ (by simpa [unknowns, List.count_cons] using h)
        simp [scanFrom, hz l (i + 1) _ (by omega)]

theorem knownSum_set (l : CList) (j : Nat) (v : ℚ) (h : l[j]? = some none) :
    knownSum (l.set j (some v)) = knownSum l + v ∧
      unknowns (l.set j (some v)) + 1 = unknowns l := by
  induction l generalizing j with
  | nil => simp at h
  | cons x l ih =>
    cases j with
    | zero =>
      simp at h; subst h
      simp [knownSum, unknowns, List.count_cons]
      ring
    | succ j =>
      simp at h
      obtain ⟨h1, h2⟩ := ih j h
      cases x with
      | none =>
        refine ⟨by simpa [knownSum] using h1, ?_⟩
        simp only [List.set_cons_succ, unknowns, List.count_cons] at h2 ⊢
        omega
      | some w =>
        constructor
        · have : knownSum (some w :: l.set j (some v)) = w + knownSum (l.set j (some v)) := by
            simp [knownSum]
          have h' : knownSum (some w :: l) = w + knownSum l := by simp [knownSum]
          simp only [List.set_cons_succ, this, h', h1]; ring
        · simp only [List.set_cons_succ, unknowns, List.count_cons] at h2 ⊢
          omega

/-- **C44.** Completing a component flow list from a total: with exactly one unknown the result has
no unknown, sums exactly to the total and differs from the input only at the unknown position. -/
theorem C44_single_unknown_completed (tol n : ℚ) (l : CList) (h1 : unknowns l = 1) :
    ∃ j v, l[j]? = some none ∧ fillTotal tol n l = some (l.set j (some v)) ∧
      unknowns (l.set j (some v)) = 0 ∧ knownSum (l.set j (some v)) = n := by
  have hs := scanFrom_sum l 0 (0, 0, none)
  have hc := scanFrom_count l 0 (0, 0, none)
  obtain ⟨j, hj, hl⟩ := scanFrom_idx l 0 (0, 0, none) (by omega)
  simp only [zero_add, h1] at hs hc hj
  have hscan : scan l = (knownSum l, 1, some j) := by
    unfold scan
    ext1
    · exact hs
    · ext1
      · exact hc
      · exact hj
  obtain ⟨k1, k2⟩ := knownSum_set l j (n - knownSum l) hl
  refine ⟨j, n - knownSum l, hl, ?_, by omega, by rw [k1]; ring⟩
  simp only [fillTotal, hscan]

/-- **C44.** With no unknown entry, reconciliation succeeds iff the total is non-zero and matches
the sum within the relative tolerance, and then changes nothing. -/
theorem C44_complete_list_checked (tol n : ℚ) (l r : CList) (h0 : unknowns l = 0) :
    fillTotal tol n l = some r ↔ (r = l ∧ n ≠ 0 ∧ |knownSum l - n| ≤ tol * |n|) := by
  have hs := scanFrom_sum l 0 (0, 0, none)
  have hc := scanFrom_count l 0 (0, 0, none)
  simp only [zero_add, h0] at hs hc
  have hscan : scan l = (knownSum l, 0, (scan l).2.2) := by
    unfold scan
    ext1
    · exact hs
    · ext1
      · exact hc
      · rfl
  simp only [fillTotal]
  rw [hscan]
  simp only
  by_cases hn : n = 0
  · simp [hn]
  · have habs : 0 < |n| := abs_pos.2 hn
    have : tol < |(knownSum l - n) / n| ↔ ¬ (|knownSum l - n| ≤ tol * |n|) := by
      rw [abs_div, lt_div_iff₀ habs, not_le]
    simp only [hn, if_false, this]
    by_cases h : |knownSum l - n| ≤ tol * |n|
    · simp [h, hn, eq_comm]
    · simp [h]

/-- With two or more unknowns nothing changes. -/
theorem C44_underdetermined_untouched (tol n : ℚ) (l : CList) (h : 2 ≤ unknowns l) :
    fillTotal tol n l = some l := by
  have hc := scanFrom_count l 0 (0, 0, none)
  simp only [zero_add] at hc
  have hc' : (scan l).2.1 = unknowns l := hc
  simp only [fillTotal]
  split
  · rename_i heq; rw [heq] at hc'; simp at hc'; omega
  · rename_i heq; rw [heq] at hc'; simp at hc'; omega
  · rfl

example : unknowns [some 1, none, some (5/2)] = 1 ∧
    fillTotal (1/1000) 4 [some 1, none, some (5/2)] = some [some 1, some (1/2), some (5/2)] := by
  constructor
  · decide
  · norm_num [fillTotal, scan, scanFrom]

/-- At the level of the object: `n` with an `ns` list lacking one entry (no `ms`, no mixing with
`zs`/`ws`) ends with `ns` summing to `n` and every other specification unchanged. -/
theorem C44_reconcile_fills_ns (tol : ℚ) (MWs : Option (List ℚ)) (mix : Args → Option CList)
    (s : Args) (n : ℚ) (ns : CList) (hn : s.fl .n = some n) (hns : s.cf .ns = some ns)
    (hm : s.fl .m = none) (hQ : s.fl .Q = none) (hms : s.cf .ms = none) (hws : s.cf .ws = none)
    (h1 : unknowns ns = 1) :
    ∃ s' ns', reconcileFlows tol MWs mix s = some s' ∧ s'.cf .ns = some ns' ∧ knownSum ns' = n ∧
      unknowns ns' = 0 ∧ (∀ c, c ≠ .ns → s'.cf c = s.cf c) ∧ s'.fl = s.fl ∧ s'.st = s.st := by
  obtain ⟨j, v, _, h2, h3, h4⟩ := C44_single_unknown_completed tol n ns h1
  refine ⟨{ s with cf := upd (upd s.cf .ns (some (ns.set j (some v)))) .ms none }, _, ?_, ?_, h4,
    h3, ?_, rfl, rfl⟩
  · simp [reconcileFlows, hn, hm, hQ, hns, hms, h2, hws]
  · simp [upd]
  · intro c hc
    by_cases h : c = .ms
    · simp [upd, h, hms]
    · simp [upd, h, hc]

/-- **C44.** Mole flows next to mass flows: accepted only if every mole flow given agrees with the mass flow of the component within
the relative tolerance; afterwards the mole flow of every component with a known mass flow is the one computed from it and the others are
as given. -/
theorem C44_mass_and_mole_flows (tol : ℚ) (ns ms : CList) (MWs : List ℚ) (r : CList) (h : matchMoles tol ns ms MWs = some r) :
    r.length = ns.length ∧ ∀ j : ℕ,
      ((∀ m, ms[j]? ≠ some (some m)) → r[j]? = ns[j]?)
      ∧ ∀ m, ms[j]? = some (some m) → ∃ MW, MWs[j]? = some MW ∧ MW ≠ 0 ∧ r[j]? = some (some (1000 * m / MW))
        ∧ ∀ n, ns[j]? = some (some n) → m ≠ 0 ∧ |n - 1000 * m / MW| ≤ tol * |1000 * m / MW| := by
  induction ms generalizing ns MWs r with
  | nil =>
    have : r = ns := by
      cases ns with
      | nil => simpa [matchMoles] using h
      | cons n ns => simpa [matchMoles, eq_comm] using h
    subst this
    exact ⟨rfl, fun j => ⟨fun _ => rfl, by simp⟩⟩
  | cons m ms ih =>
    cases m with
    | none =>
      cases ns with
      | nil =>
        simp only [matchMoles] at h
        obtain ⟨h1, h2⟩ := ih [] MWs.tail r h
        refine ⟨h1, fun j => ?_⟩
        have hr : r = [] := by simpa using h1
        subst hr
        cases j with
        | zero => simp
        | succ j =>
          obtain ⟨h3, h4⟩ := h2 j
          refine ⟨by simp, fun m hm => ?_⟩
          obtain ⟨MW, _, _, h5, _⟩ := h4 m (by simpa using hm)
          simp at h5
      | cons n ns =>
        simp only [matchMoles, Option.map_eq_some_iff] at h
        obtain ⟨r', h', rfl⟩ := h
        obtain ⟨h1, h2⟩ := ih ns MWs.tail r' h'
        refine ⟨by simp [h1], fun j => ?_⟩
        cases j with
        | zero => simp
        | succ j =>
          simpa using h2 j
    | some m =>
      cases ns with
      | nil => simp [matchMoles] at h
      | cons n ns =>
        cases MWs with
        | nil => simp [matchMoles] at h
        | cons MW MWs =>
          unfold matchMoles at h
          by_cases hMW : MW = 0
          · rw [if_pos hMW] at h; exact absurd h (by simp)
          rw [if_neg hMW] at h
          dsimp only at h
          have fin : ∀ r', matchMoles tol ns ms MWs = some r' → some (1000 * m / MW) :: r' = r →
              (∀ n', n = some n' → m ≠ 0 ∧ |n' - 1000 * m / MW| ≤ tol * |1000 * m / MW|) →
              r.length = (n :: ns).length ∧ ∀ j : ℕ,
              ((∀ m', (some m :: ms)[j]? ≠ some (some m')) → r[j]? = (n :: ns)[j]?)
              ∧ ∀ m', (some m :: ms)[j]? = some (some m') → ∃ MW', (MW :: MWs)[j]? = some MW' ∧ MW' ≠ 0
                ∧ r[j]? = some (some (1000 * m' / MW'))
                ∧ ∀ n', (n :: ns)[j]? = some (some n') → m' ≠ 0 ∧ |n' - 1000 * m' / MW'| ≤ tol * |1000 * m' / MW'| := by
            rintro r' hr' rfl hn
            obtain ⟨h1, h2⟩ := ih ns MWs r' hr'
            refine ⟨by simp [h1], fun j => ?_⟩
            cases j with
            | zero =>
              refine ⟨fun hno => absurd rfl (hno m), fun m' hm' => ?_⟩
              simp only [List.getElem?_cons_zero, Option.some.injEq] at hm'
              subst hm'
              exact ⟨MW, rfl, hMW, rfl, fun n' hn' => hn n' (by simpa using hn')⟩
            | succ j => simpa using h2 j
          cases n with
          | none =>
            dsimp only at h
            obtain ⟨r', hr', hh⟩ := Option.map_eq_some_iff.1 h
            exact fin r' hr' hh (by simp)
          | some n =>
            dsimp only at h
            by_cases h0 : 1000 * m / MW = 0
            · rw [if_pos h0] at h; exact absurd h (by simp)
            rw [if_neg h0] at h
            by_cases ht : tol < |(n - 1000 * m / MW) / (1000 * m / MW)|
            · rw [if_pos ht] at h; exact absurd h (by simp)
            rw [if_neg ht] at h
            obtain ⟨r', hr', hh⟩ := Option.map_eq_some_iff.1 h
            refine fin r' hr' hh fun n' hn' => ?_
            cases hn'
            refine ⟨fun hm => h0 (by rw [hm]; simp), ?_⟩
            rwa [not_lt, abs_div, div_le_iff₀ (abs_pos.2 h0)] at ht

example : matchMoles (1/100) [some 1000, none, some 5] [some 18, some 36, none] [18, 18, 7] = some [some 1000, some 2000, some 5]
    ∧ matchMoles (1/100) [some 900, none, some 5] [some 18, some 36, none] [18, 18, 7] = none := by
  constructor <;> decide +kernel

/-! ## C43: contradictory total flows in the constructor -/

/-- **C43 (partial).** Two of the total flows `n`, `m`, `Q` are rejected by the constructor.
Missing for the full claim: `Ql` and `Qg`, for which it is false
(`C43_constructor_accepts_two_total_flows`). -/
theorem C43_constructor_rejects_two_totals_partial (tol : ℚ) (MWs : Option (List ℚ))
    (mix : Args → Option CList) (g : Given) (f f' : FV) (hff : f ≠ f')
    (hf : f = .n ∨ f = .m ∨ f = .Q) (hf' : f' = .n ∨ f' = .m ∨ f' = .Q)
    (h1 : g.fl f ≠ none) (h2 : g.fl f' ≠ none) :
    ctor (reconcileFlows tol MWs mix) g = none := by
  have hcount : 1 < ctorFlowSpecs g := by
    rw [← Option.isSome_iff_ne_none] at h1 h2
    simp only [ctorFlowSpecs, countSome, List.countP_cons, List.countP_nil]
    rcases hf with rfl | rfl | rfl <;> rcases hf' with rfl | rfl | rfl <;>
      first | (exact absurd rfl hff) | (simp [h1, h2]; omega)
  have hrec : reconcileFlows tol MWs mix (initSpecs g) = none := by
    rw [← Option.isSome_iff_ne_none] at h1 h2
    unfold reconcileFlows
    simp only [initSpecs]
    rcases hf with rfl | rfl | rfl <;> rcases hf' with rfl | rfl | rfl <;>
      first | (exact absurd rfl hff) | (simp [h1, h2])
  simp [ctor, hcount, hrec]

/-- **C43 fails** for `Ql`/`Qg`: `StreamArgs(n=1, Ql=2)` is accepted and holds two flow
specifications. -/
theorem C43_constructor_accepts_two_total_flows (tol : ℚ) (MWs : Option (List ℚ))
    (mix : Args → Option CList) :
    ∃ g s, ctor (reconcileFlows tol MWs mix) g = some s ∧ numFlow s = 2 := by
  let g : Given := ⟨fun _ => none, fun _ => none,
    fun f => if f = .n then some 1 else if f = .Ql then some 2 else none, false⟩
  refine ⟨g, ⟨fun _ => none, fun _ => none, g.fl, false⟩, ?_, by decide⟩
  have e : upd (upd (fun _ => (none : Option CList)) CV.ns none) CV.ms none = fun _ => none := by
    funext c; simp [upd]
  simp [ctor, g, ctorFlowSpecs, ctorCompositionSpecs, ctorStateSpecs, countSome, List.countP_cons,
    compositionSpecKeys, stateSpecifiedKeys, reconcileFlows, initSpecs, e]

end Verif.Stream
