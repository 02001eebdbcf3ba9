import Verif.Util.Partial
import Mathlib.Analysis.SpecialFunctions.Log.Basic
import Mathlib.Analysis.SpecialFunctions.Sqrt
import Mathlib.Algebra.BigOperators.Group.Finset.Basic
import Mathlib.Algebra.BigOperators.Ring.Finset
import Mathlib.Algebra.BigOperators.Fin
import Mathlib.Algebra.Order.BigOperators.Group.Finset
import Mathlib.Algebra.Order.BigOperators.Ring.Finset
import Mathlib.Analysis.Complex.ExponentialBounds
import Mathlib.Tactic.NormNum
import Mathlib.Tactic.Linarith
import Mathlib.Tactic.Positivity
import Mathlib.Tactic.FieldSimp
import Mathlib.Tactic.Ring
import Mathlib.Tactic.FinCases

/-!
# Checks and small functions (`thermo/utils/functional.py` 42-576)

C101: comparison of arrays, choice of a phase from basic data, choice of a property by phase, second mole number
derivatives, tangent plane distances, balances of components, elements and energy.

Numbers are real. Arrays compared have equal length. `assert_close` of `fluids` passes if the numbers are equal or
differ by at most the larger of the absolute tolerance and the relative one of the larger magnitude.
`mix_multiple_component_flows` of `chemicals` returns the union of the components with summed flows. A stream has
fractions for the components it names; inlets and outlets are given as lists.
-/

namespace Verif.Functional

open Finset Real

/-! ## Comparison of arrays -/

/-- `numpy.isclose`. -/
def isclose (rtol atol a b : ℝ) : Prop := |a - b| ≤ atol + rtol * |b|

open Classical in
/-- Number of matches (line 85). -/
noncomputable def matchCount (rtol atol : ℝ) (l : List (ℝ × ℝ)) : ℕ := l.countP fun p => isclose rtol atol p.1 p.2

open Classical in
/-- The loop of lines 84-88 over tolerances and limits, for arrays of length at least one. -/
noncomputable def closeLoop (l : List (ℝ × ℝ)) : List (ℝ × ℝ × ℝ) → Bool
  | [] => true
  | (atol, rtol, lim) :: r =>
    if 1 - (matchCount rtol atol l : ℝ) / l.length > lim then false else closeLoop l r

/-- Lines 77-82: the missing tolerances are zero; `none` without any. -/
def tolerances (rtols atols : Option (List ℝ)) : Option (List ℝ × List ℝ) :=
  match rtols, atols with
  | none, none => none
  | none, some a => some (a.map fun _ => 0, a)
  | some r, none => some (r, r.map fun _ => 0)
  | some r, some a => some (r, a)

/-- `allclose_variable` (42-88), on pairs of corresponding elements. `none`: an exception, also for empty arrays if
there is anything to compare (division by zero). -/
noncomputable def allclose (l : List (ℝ × ℝ)) (limits : List ℝ) (rtols atols : Option (List ℝ)) : Option Bool :=
  match tolerances rtols atols with
  | none => none
  | some (r, a) =>
    let q := a.zip (r.zip limits)
    if l = [] ∧ q ≠ [] then none else some (closeLoop l q)

/-! ## Phases and properties by phase -/

/-- Phases of a substance. -/
inductive Phase | s | l | g
deriving DecidableEq

/-- Python truth of an optional number. -/
def truthy (x : Option ℝ) : Prop := ∃ v, x = some v ∧ v ≠ 0

open Classical in
/-- `identify_phase` (148-227), the pressure given. -/
noncomputable def identify (T P : ℝ) (Tm Tb Tc Psat : Option ℝ) : Option Phase :=
  if truthy Tm ∧ T ≤ Tm.getD 0 then some .s
  else if truthy Tc ∧ T ≥ Tc.getD 0 then some .g
  else if truthy Psat then
    if P ≤ Psat.getD 0 then some .g else if P > Psat.getD 0 then some .l else none
  else if truthy Tb then
    if 90000 < P ∧ P < 110000 then
      if T < Tb.getD 0 then some .l else some .g
    else if P > 101325 ∧ T ≤ Tb.getD 0 then some .l
    else none
  else none

/-- The argument `phase` of `phase_select_property`. -/
inductive PhaseArg | s | l | g | twoPhase | missing | other
deriving DecidableEq

/-- `phase_select_property` (90-146) with the object given: the three getters are run only if needed, so the result
is a choice among them. Outer `none`: an exception. -/
def select {α : Type} (phase : PhaseArg) (s l g : Option α) : Option (Option α) :=
  match phase with
  | .s => some s
  | .l => some l
  | .g => some g
  | .missing => some none
  | .twoPhase => some none
  | .other => none

/-! ## Derivatives and tangent plane distances -/

variable {N : ℕ}

/-- `d2ns_to_dn2_partials` (229-244). -/
def dn2 (d2ns : Fin N → Fin N → ℝ) (dns : Fin N → ℝ) (i j : Fin N) : ℝ := d2ns i j + dns i + dns j

/-- `trunc_log` of `fluids.numerics`. -/
noncomputable def truncLog (x : ℝ) : ℝ := if x = 0 then -744.4400719213812 else log x

open Classical in
/-- `TPD` (262-337). -/
noncomputable def TPD (R T : ℝ) (zs lnphis ys lnphisTest : Fin N → ℝ) : ℝ :=
  (∑ i, if ys i = 0 ∧ zs i = 0 then 0
    else ys i * (truncLog (ys i) + lnphisTest i - (truncLog (zs i) + lnphis i))) * R * T

/-- The logarithm of lines 394-399: `math.log` raises for arguments that are not positive. -/
noncomputable def log690 (x : ℝ) : ℝ := if 0 < x then log x else -690

/-- Lines 393-400. -/
noncomputable def ki (lnphis zs lnphisTrial ys : Fin N → ℝ) (i : Fin N) : ℝ :=
  lnphisTrial i + log690 (ys i) - (lnphis i + log690 (zs i))

/-- Index of the next value, the first one again after the last (line 401). -/
def next (hN : 0 < N) (i : Fin N) : Fin N := if h : i.1 + 1 < N then ⟨i.1 + 1, h⟩ else ⟨0, hN⟩

/-- `Stateva_Tsvetkov_TPDF` (339-407); `none` is the IndexError for empty lists. -/
noncomputable def stateva (lnphis zs lnphisTrial ys : Fin N → ℝ) : Option ℝ :=
  if hN : 0 < N then
    some (∑ i, (ki lnphis zs lnphisTrial ys (next hN i) - ki lnphis zs lnphisTrial ys i) *
      (ki lnphis zs lnphisTrial ys (next hN i) - ki lnphis zs lnphisTrial ys i))
  else none

/-! ## Balances -/

/-- `assert_close` of `fluids` passes. -/
def close (rtol atol a b : ℝ) : Prop := a = b ∨ |a - b| ≤ max (rtol * max |a| |b|) atol

/-- What the checks read of a stream: its components, mole flow and fractions, mass flow, elements with their flows,
its two energies, volumetric flow and molecular weight. -/
structure Flow (C E : Type) where
  comps : Finset C
  n : ℝ
  z : C → ℝ
  m : ℝ
  elements : Finset E
  atoms : E → ℝ
  energy : ℝ
  energyReactive : ℝ
  Q : ℝ
  MW : ℝ

section
variable {C E : Type} [DecidableEq C] [DecidableEq E]

/-- Components of `mix_multiple_component_flows`. -/
def mixComps (l : List (Flow C E)) : Finset C := l.foldr (fun s r => s.comps ∪ r) ∅

/-- Flow of a component in `mix_multiple_component_flows`. -/
noncomputable def mixFlow (l : List (Flow C E)) (c : C) : ℝ := (l.map fun s => if c ∈ s.comps then s.n * s.z c else 0).sum

/-- Elements of the streams (lines 478-491). -/
def mixElements (l : List (Flow C E)) : Finset E := l.foldr (fun s r => s.elements ∪ r) ∅

/-- Flow of an element (lines 478-491). -/
noncomputable def mixAtoms (l : List (Flow C E)) (e : E) : ℝ := (l.map fun s => if e ∈ s.elements then s.atoms e else 0).sum

/-- Outcome of a check. -/
inductive Outcome | pass | valueError | assertionError | keyError | exception
deriving DecidableEq

open Classical in
/-- `assert_component_balance` (409-522). In the loop of lines 497-498 differing flows are taken to be met before
missing elements; the order of the dictionary decides in the code which exception is raised. -/
noncomputable def componentBalance (rtol atol : ℝ) (reactive : Bool) (inlets outlets : List (Flow C E)) : Outcome :=
  if inlets = [] ∧ outlets = [] then .pass
  else if reactive then
    if ¬ close 1e-9 0 (inlets.map (·.m)).sum (outlets.map (·.m)).sum then .assertionError
    else if mixComps inlets ≠ mixComps outlets then .exception
    else if ∃ e ∈ mixElements inlets, e ∈ mixElements outlets ∧ ¬ close rtol atol (mixAtoms inlets e) (mixAtoms outlets e) then
      .assertionError
    else if ∃ e ∈ mixElements inlets, e ∉ mixElements outlets then .keyError
    else if mixElements inlets ≠ mixElements outlets then .exception
    else .pass
  else if mixComps inlets ≠ mixComps outlets then .valueError
  else if ∃ c ∈ mixComps inlets, ¬ close rtol atol (mixFlow inlets c) (mixFlow outlets c) then .assertionError
  else .pass

/-- `velocity_to_molar_velocity` of `chemicals`. -/
noncomputable def molarVelocity (v MW : ℝ) : ℝ := v * sqrt (MW * (1 / 1000))

/-- Kinetic energy of the streams (lines 546-549, 560-562, 572-574): areas and streams are zipped. -/
noncomputable def kinetic (areas : Option (List ℝ)) (l : List (Flow C E)) : ℝ :=
  match areas with
  | none => 0
  | some a => ((a.zip l).map fun p =>
      0.5 * molarVelocity (p.2.Q / p.1) p.2.MW * molarVelocity (p.2.Q / p.1) p.2.MW * p.2.n).sum

/-- One side of the balance (lines 552-562 and 564-574). -/
noncomputable def side (reactive : Bool) (l : List (Flow C E)) (duties : List ℝ) (areas : Option (List ℝ)) : ℝ :=
  (l.map fun s => if reactive then s.energyReactive else s.energy).sum + duties.sum + kinetic areas l

/-- `assert_energy_balance` (524-576); the elevations are arguments without effect. -/
def energyBalance (rtol atol : ℝ) (reactive : Bool) (inlets outlets : List (Flow C E)) (dutiesIn dutiesOut : List ℝ)
    (areasIn areasOut : Option (List ℝ)) (_elevIn _elevOut : Option (List ℝ)) : Prop :=
  close rtol atol (side reactive inlets dutiesIn areasIn) (side reactive outlets dutiesOut areasOut)

end

/-! ## Theorems on arrays, phases, properties -/

theorem closeLoop_iff (l : List (ℝ × ℝ)) (q : List (ℝ × ℝ × ℝ)) : closeLoop l q = true ↔
    ∀ t ∈ q, 1 - (matchCount t.2.1 t.1 l : ℝ) / l.length ≤ t.2.2 := by
  induction q with
  | nil => simp [closeLoop]
  | cons t r ih =>
    obtain ⟨a, b, c⟩ := t
    rw [closeLoop]
    split_ifs with h
    · simp only [List.mem_cons, forall_eq_or_imp, false_iff, not_and]
      intro h'; exact absurd h' (not_le.2 h)
    · rw [ih]
      simp only [List.mem_cons, forall_eq_or_imp]
      exact ⟨fun e => ⟨not_lt.1 h, e⟩, fun e => e.2⟩

open Classical in
theorem fraction_iff (l : List (ℝ × ℝ)) (hl : l ≠ []) (r a lim : ℝ) :
    1 - (matchCount r a l : ℝ) / l.length ≤ lim ↔
      ((l.countP fun p => ¬ isclose r a p.1 p.2 : ℕ) : ℝ) ≤ lim * l.length := by
  have hlen : (0 : ℝ) < l.length := by exact_mod_cast List.length_pos_iff.2 hl
  have h := List.length_eq_countP_add_countP (fun p : ℝ × ℝ => decide (isclose r a p.1 p.2)) (l := l)
  have h' : (l.length : ℝ) = matchCount r a l + ((l.countP fun p => ¬ isclose r a p.1 p.2 : ℕ) : ℝ) := by
    rw [matchCount]
    have e : (l.countP fun p => decide (¬ isclose r a p.1 p.2)) =
        l.countP fun p => decide (¬ (decide (isclose r a p.1 p.2)) = true) := by
      congr 1; funext p; simp
    rw [e]
    exact_mod_cast h
  rw [sub_le_iff_le_add, ← sub_le_iff_le_add', le_div_iff₀ hlen]
  constructor <;> intro h2 <;> nlinarith

open Classical in
/-- **C101.** Arrays are found equal exactly if, for every limit paired with its tolerances, at most that fraction of
the elements differs. -/
theorem C101_allclose (l : List (ℝ × ℝ)) (hl : l ≠ []) (limits r a : List ℝ) (hr : r.length = limits.length)
    (ha : a.length = limits.length) :
    allclose l limits (some r) (some a) = some true ↔
      ∀ k, (hk : k < limits.length) →
        ((l.countP fun p => ¬ isclose (r[k]'(hr ▸ hk)) (a[k]'(ha ▸ hk)) p.1 p.2 : ℕ) : ℝ) ≤ limits[k] * l.length := by
  unfold allclose tolerances
  dsimp only
  rw [if_neg fun h => hl h.1, Option.some.injEq, closeLoop_iff]
  constructor
  · intro h k hk
    have hq : (a[k]'(ha ▸ hk), r[k]'(hr ▸ hk), limits[k]) ∈ a.zip (r.zip limits) := by
      rw [List.mem_iff_getElem]
      exact ⟨k, by simp only [List.length_zip, ha, hr, min_self, hk], by simp only [List.getElem_zip]⟩
    have h' := h _ hq
    dsimp only at h'
    exact (fraction_iff l hl _ _ _).1 h'
  · intro h t ht
    obtain ⟨k, hk, rfl⟩ := List.mem_iff_getElem.1 ht
    have hk' : k < limits.length := by simp [ha, hr] at hk; exact hk
    have := (fraction_iff l hl _ _ _).2 (h k hk')
    simpa only [List.getElem_zip] using this

/-- **C101.** With one kind of tolerance the other one is zero, without both an exception is raised. -/
theorem C101_allclose_default (l : List (ℝ × ℝ)) (limits t : List ℝ) :
    allclose l limits (some t) none = allclose l limits (some t) (some (List.replicate t.length 0)) ∧
    allclose l limits none (some t) = allclose l limits (some (List.replicate t.length 0)) (some t) ∧
    allclose l limits none none = none := by
  refine ⟨?_, ?_, rfl⟩ <;> simp [allclose, tolerances, List.map_const']

example : allclose [(1, 1), (2, 3)] [1 / 2] (some [0]) none = some true ∧
    allclose [(1, 1), (2, 3)] [1 / 4] (some [0]) none = some false := by
  have m : matchCount 0 0 [(1, 1), (2, 3)] = 1 := by
    simp [matchCount, isclose]; norm_num
  constructor <;> simp [allclose, tolerances, closeLoop, m] <;> norm_num

/-- **C101.** Empty arrays raise an exception if there is anything to compare, and are equal otherwise; other arrays never raise one. -/
theorem C101_allclose_empty (l : List (ℝ × ℝ)) (hl : l ≠ []) (lim t : ℝ) (limits r a : List ℝ) :
    allclose [] (lim :: limits) (some (t :: r)) none = none ∧ allclose [] [] (some r) (some a) = some true ∧
    (allclose l limits (some r) (some a)).isSome := by
  refine ⟨?_, ?_, ?_⟩ <;> simp [allclose, tolerances, closeLoop, hl]

example : allclose [] [1 / 2] (some [0]) none = none := (C101_allclose_empty [(1, 1)] (by simp) _ _ [] [] []).1

/-- **C101, refuted.** Limits without a tolerance of their own are ignored: nothing matches, no mismatch is allowed,
and the result is true. -/
theorem C101_allclose_limits_fails : allclose [(1, 2)] [1, 0] (some [0]) none = some true := by
  have m : matchCount 0 0 [(1, 2)] = 0 := by simp [matchCount, isclose]; norm_num
  simp [allclose, tolerances, closeLoop, m]

/-- **C101, refuted.** The comparison depends on which array is given first. -/
theorem C101_allclose_order_fails : allclose [(9, 10)] [0] (some [0.1]) none = some true ∧
    allclose [(10, 9)] [0] (some [0.1]) none = some false := by
  have m1 : matchCount 0.1 0 [(9, 10)] = 1 := by simp [matchCount, isclose]; norm_num
  have m2 : matchCount 0.1 0 [(10, 9)] = 0 := by simp [matchCount, isclose]; norm_num
  constructor
  · simp [allclose, tolerances, closeLoop, m1]
  · simp [allclose, tolerances, closeLoop, m2]

/-- **C101.** The phase by the documented rules, for data that are missing or positive. -/
theorem C101_identify (T P : ℝ) (Tm Tb Tc Psat : Option ℝ) (hm : ∀ v ∈ Tm, 0 < v) (hb : ∀ v ∈ Tb, 0 < v)
    (hc : ∀ v ∈ Tc, 0 < v) (hp : ∀ v ∈ Psat, 0 < v) :
    (identify T P Tm Tb Tc Psat = some .s ↔ ∃ v ∈ Tm, T ≤ v) ∧
    ((∀ v ∈ Tm, v < T) → (∃ v ∈ Tc, v ≤ T) → identify T P Tm Tb Tc Psat = some .g) ∧
    ((∀ v ∈ Tm, v < T) → (∀ v ∈ Tc, T < v) → ∀ ps ∈ Psat,
      identify T P Tm Tb Tc Psat = some (if P ≤ ps then .g else .l)) ∧
    ((∀ v ∈ Tm, v < T) → (∀ v ∈ Tc, T < v) → Psat = none → ∀ tb ∈ Tb,
      (90000 < P → P < 110000 → identify T P Tm Tb Tc Psat = some (if T < tb then .l else .g)) ∧
      (110000 ≤ P → identify T P Tm Tb Tc Psat = if T ≤ tb then some .l else none) ∧
      (P ≤ 90000 → identify T P Tm Tb Tc Psat = none)) ∧
    ((∀ v ∈ Tm, v < T) → (∀ v ∈ Tc, T < v) → Psat = none → Tb = none → identify T P Tm Tb Tc Psat = none) := by
  have ht : ∀ {x : Option ℝ}, (∀ v ∈ x, 0 < v) → ∀ v ∈ x, truthy x := fun hx v hv =>
    ⟨v, hv, (hx v hv).ne'⟩
  have hcm : (truthy Tm ∧ T ≤ Tm.getD 0) ↔ ∃ v ∈ Tm, T ≤ v := by
    constructor
    · rintro ⟨⟨v, hv, -⟩, h⟩
      exact ⟨v, hv, by simpa [hv] using h⟩
    · rintro ⟨v, hv, h⟩
      refine ⟨ht hm v hv, ?_⟩
      rw [Option.mem_def.1 hv]; exact h
  have hcc : (truthy Tc ∧ T ≥ Tc.getD 0) ↔ ∃ v ∈ Tc, v ≤ T := by
    constructor
    · rintro ⟨⟨v, hv, -⟩, h⟩
      exact ⟨v, hv, by simpa [hv] using h⟩
    · rintro ⟨v, hv, h⟩
      refine ⟨ht hc v hv, ?_⟩
      rw [Option.mem_def.1 hv]; exact h
  have nm : (∀ v ∈ Tm, v < T) → ¬ (truthy Tm ∧ T ≤ Tm.getD 0) := by
    intro h h'
    obtain ⟨v, hv, h2⟩ := hcm.1 h'
    exact absurd h2 (not_le.2 (h v hv))
  have nc : (∀ v ∈ Tc, T < v) → ¬ (truthy Tc ∧ T ≥ Tc.getD 0) := by
    intro h h'
    obtain ⟨v, hv, h2⟩ := hcc.1 h'
    exact absurd h2 (not_le.2 (h v hv))
  have nn : ¬ truthy none := by rintro ⟨v, h, -⟩; cases h
  refine ⟨?_, ?_, ?_, ?_, ?_⟩
  · rw [← hcm]
    unfold identify
    by_cases h : truthy Tm ∧ T ≤ Tm.getD 0
    · simp [h]
    · rw [if_neg h]
      simp only [h, iff_false]
      split_ifs <;> simp
  · intro h1 h2
    unfold identify
    rw [if_neg (nm h1), if_pos (hcc.2 h2)]
  · intro h1 h2 ps hps
    unfold identify
    rw [if_neg (nm h1), if_neg (nc h2), if_pos (ht hp ps hps)]
    rw [Option.mem_def.1 hps, Option.getD_some]
    by_cases h : P ≤ ps
    · rw [if_pos h, if_pos h]
    · rw [if_neg h, if_neg h, if_pos (not_le.1 h)]
  · intro h1 h2 h3 tb htb
    have e : identify T P Tm Tb Tc Psat = if 90000 < P ∧ P < 110000 then
      if T < tb then some .l else some .g
    else if P > 101325 ∧ T ≤ tb then some .l
    else none := by
      unfold identify
      rw [if_neg (nm h1), if_neg (nc h2), if_neg (h3 ▸ nn), if_pos (ht hb tb htb), Option.mem_def.1 htb,
        Option.getD_some]
    rw [e]
    refine ⟨fun a b => ?_, fun a => ?_, fun a => ?_⟩
    · rw [if_pos ⟨a, b⟩]; split_ifs <;> rfl
    · rw [if_neg fun h => absurd h.2 (not_lt.2 a)]
      by_cases h : T ≤ tb
      · rw [if_pos ⟨by linarith, h⟩, if_pos h]
      · rw [if_neg fun h' => h h'.2, if_neg h]
    · rw [if_neg fun h => absurd h.1 (not_lt.2 a), if_neg fun h => by linarith [h.1]]
  · intro h1 h2 h3 h4
    unfold identify
    rw [if_neg (nm h1), if_neg (nc h2), if_neg (h3 ▸ nn), if_neg (h4 ▸ nn)]

/-- Water at 280 K. -/
example : identify 280 101325 (some 273.15) (some 373.15) (some 647) (some 991) = some .l := by
  rw [(C101_identify 280 101325 (some 273.15) (some 373.15) (some 647) (some 991) (by simp; norm_num) (by simp; norm_num)
    (by simp) (by simp)).2.2.1 (by simp; norm_num) (by simp; norm_num) 991 (by simp)]
  norm_num

/-- **C101.** At a fixed temperature a liquid stays a liquid when the pressure is raised, provided the vapor pressure
is known. -/
theorem C101_identify_mono {T P P' : ℝ} {Tm Tb Tc Psat : Option ℝ} (hP : P ≤ P') (hk : truthy Psat)
    (h : identify T P Tm Tb Tc Psat = some .l) : identify T P' Tm Tb Tc Psat = some .l := by
  unfold identify at h ⊢
  split_ifs at h with h1 h2 h3 h4 <;> try cases h
  · rw [if_neg h1, if_neg h2, if_pos hk, if_neg (fun h => h3 (hP.trans h)), if_pos (lt_of_lt_of_le h4 hP)]

/-- **C101, partial: only at and above 110 kPa.** A liquid found with the boiling point is one according to any vapor
pressure curve that does not decrease and is 101325 Pa at the boiling point. -/
theorem C101_boiling_partial {T P tb : ℝ} {Tm Tc : Option ℝ} (ps : ℝ → ℝ) (hps : Monotone ps) (hb : ps tb = 101325)
    (hP : 110000 ≤ P) (h : identify T P Tm (some tb) Tc none = some .l) : ps T < P := by
  have nn : ¬ truthy none := by rintro ⟨v, h, -⟩; cases h
  unfold identify at h
  rw [if_neg nn] at h
  split_ifs at h with h1 h2 h3 h4 h5 h6 <;> try cases h
  · linarith [h4.2]
  · have := hps h6.2
    rw [Option.getD_some, hb] at this
    linarith

example : Monotone (fun T : ℝ => 101325 / 400 * T) ∧ 101325 / 400 * (400 : ℝ) = 101325 ∧
    identify 350 200000 none (some 400) none none = some .l := by
  refine ⟨fun a b h => by dsimp only; linarith, by norm_num, ?_⟩
  exact (((C101_identify 350 200000 none (some 400) none none (by simp) (by simp) (by simp) (by simp)).2.2.2.1 (by simp)
    (by simp) rfl 400 rfl).2.1 (by norm_num)).trans (by norm_num)

/-- **C101, refuted.** Between 90 and 110 kPa the phase found with the boiling point can contradict the vapor pressure:
five degrees below the boiling point at 91 kPa a fluid of vapor pressure 96 kPa is called a liquid. -/
theorem C101_boiling_fails : ∃ ps : ℝ → ℝ, StrictMono ps ∧ ps 400 = 101325 ∧ 91000 < ps 395 ∧
    identify 395 91000 none (some 400) none none = some .l ∧
    identify 395 91000 none (some 400) none (some (ps 395)) = some .g := by
  refine ⟨fun T => 101325 + 1000 * (T - 400), fun a b h => by dsimp only; linarith, by norm_num, by norm_num, ?_, ?_⟩
  · exact (((C101_identify 395 91000 none (some 400) none none (by simp) (by simp) (by simp) (by simp)).2.2.2.1
      (by simp) (by simp) rfl 400 rfl).1 (by norm_num) (by norm_num)).trans (by norm_num)
  · rw [(C101_identify 395 91000 none (some 400) none (some (101325 + 1000 * (395 - 400))) (by simp) (by simp) (by simp)
      (by simp; norm_num)).2.2.1 (by simp) (by simp) _ rfl]
    norm_num

/-- **C101, refuted.** A vapor pressure of zero counts as unknown, so a liquid is not recognised. -/
theorem C101_identify_zero_fails : identify 300 101325 (some 250) none none (some 0) = none ∧
    ∀ ps : ℝ, 0 < ps → ps < 101325 → identify 300 101325 (some 250) none none (some ps) = some .l := by
  constructor
  · have nn : ¬ truthy none := by rintro ⟨v, h, -⟩; cases h
    have n0 : ¬ truthy (some 0) := by rintro ⟨v, h, h'⟩; cases h; exact h' rfl
    unfold identify
    rw [if_neg fun h => by have := h.2; norm_num at this, if_neg fun h => nn h.1, if_neg n0, if_neg nn]
  · intro ps h1 h2
    rw [(C101_identify 300 101325 (some 250) none none (some ps) (by simp) (by simp) (by simp)
      (by simpa using h1)).2.2.1 (by simp; norm_num) (by simp) ps rfl, if_neg (not_le.2 h2)]

/-- **C101.** The property selected is that of the phase; two phases and an unknown phase have none, anything else is
an error. -/
theorem C101_select {α : Type} (p : PhaseArg) (s l g : Option α) (r : Option α) :
    select p s l g = some r ↔ (p = .s ∧ r = s) ∨ (p = .l ∧ r = l) ∨ (p = .g ∧ r = g) ∨
      ((p = .twoPhase ∨ p = .missing) ∧ r = none) := by
  cases p <;> simp [select, eq_comm]

example : select .g (some 150) none (some 3312) = some (some 3312) := rfl

/-! ## Theorems on derivatives and tangent planes -/

/-- **C101.** The matrix is the matrix of second derivatives of the total property `n F(n)` where the total amount is
one. -/
theorem C101_dn2 (F : (Fin N → ℝ) → ℝ) (dns : (Fin N → ℝ) → Fin N → ℝ) (d2ns : Fin N → Fin N → ℝ) (n : Fin N → ℝ)
    (h1 : ∀ i m, PD F i m (dns m i)) (i j : Fin N) (h2 : PD (fun m => dns m i) j n (d2ns i j)) (hn : ∑ k, n k = 1) :
    ∃ G : (Fin N → ℝ) → ℝ, (∀ m, PD (fun m => (∑ k, m k) * F m) i m (G m)) ∧ PD G j n (dn2 d2ns (dns n) i j) := by
  have hs : ∀ i m, PD (fun m : Fin N → ℝ => ∑ k, m k) i m 1 := by
    intro i m
    simpa using PD.linear (fun _ => 1) i m
  refine ⟨fun m => 1 * F m + (∑ k, m k) * dns m i, fun m => (hs i m).mul (h1 i m), ?_⟩
  have h := ((h1 j n).const_mul 1).add ((hs j n).mul h2)
  refine h.congr_d ?_
  rw [hn, dn2]
  ring

example : PD (fun m : Fin 2 → ℝ => m 0) 0 ![1 / 2, 1 / 2] 1 ∧ ∑ k, (![1 / 2, 1 / 2] : Fin 2 → ℝ) k = 1 := by
  refine ⟨by simpa using PD.coord 0 0 ![(1 : ℝ) / 2, 1 / 2], by norm_num [Fin.sum_univ_two]⟩

theorem TPD_eq (R T : ℝ) (zs lnphis ys lnphisTest : Fin N → ℝ) : TPD R T zs lnphis ys lnphisTest =
    R * T * ∑ i, ys i * (truncLog (ys i) + lnphisTest i - (truncLog (zs i) + lnphis i)) := by
  unfold TPD
  rw [mul_assoc, mul_comm]
  congr 1
  refine sum_congr rfl fun i _ => ?_
  split_ifs with h
  · rw [h.1, zero_mul]
  · rfl

/-- **C101.** For compositions without zeros the result is the documented sum. -/
theorem C101_TPD (R T : ℝ) (zs lnphis ys lnphisTest : Fin N → ℝ) (hz : ∀ i, 0 < zs i) (hy : ∀ i, 0 < ys i) :
    TPD R T zs lnphis ys lnphisTest =
      R * T * ∑ i, ys i * (log (ys i) + lnphisTest i - (log (zs i) + lnphis i)) := by
  rw [TPD_eq]
  simp only [truncLog, (hz _).ne', (hy _).ne', if_false]

/-- **C101.** The distance vanishes for the phase itself, zeros in the composition included. -/
theorem C101_TPD_self (R T : ℝ) (zs lnphis : Fin N → ℝ) : TPD R T zs lnphis zs lnphis = 0 := by
  rw [TPD_eq]
  simp

/-- **C101.** The distance vanishes for a trial phase in equilibrium, so at bubble and dew points. -/
theorem C101_TPD_equilibrium (R T : ℝ) (zs lnphis ys lnphisTest : Fin N → ℝ) (hz : ∀ i, 0 < zs i) (hy : ∀ i, 0 < ys i)
    (heq : ∀ i, ys i * exp (lnphisTest i) = zs i * exp (lnphis i)) : TPD R T zs lnphis ys lnphisTest = 0 := by
  rw [C101_TPD R T zs lnphis ys lnphisTest hz hy]
  have : ∀ i, log (ys i) + lnphisTest i - (log (zs i) + lnphis i) = 0 := by
    intro i
    have h := congrArg log (heq i)
    rw [log_mul (hy i).ne' (exp_ne_zero _), log_mul (hz i).ne' (exp_ne_zero _), log_exp, log_exp] at h
    linarith
  simp [this]

example : ∃ zs lnphis ys lnphisTest : Fin 2 → ℝ, (∀ i, 0 < zs i) ∧ (∀ i, 0 < ys i) ∧ ys ≠ zs ∧
    ∀ i, ys i * exp (lnphisTest i) = zs i * exp (lnphis i) := by
  refine ⟨![1 / 2, 1 / 2], ![log (1 / 2), log (3 / 2)], ![1 / 4, 3 / 4], ![0, 0], ?_, ?_, ?_, ?_⟩
  · intro i; fin_cases i <;> simp
  · intro i; fin_cases i <;> simp
  · intro h; have := congrFun h 0; norm_num at this
  · intro i; fin_cases i
    · change (1 / 4 : ℝ) * exp 0 = 1 / 2 * exp (log (1 / 2))
      rw [exp_zero, exp_log (by norm_num)]; norm_num
    · change (3 / 4 : ℝ) * exp 0 = 1 / 2 * exp (log (3 / 2))
      rw [exp_zero, exp_log (by norm_num)]; norm_num

/-- **C101.** Of a fraction that is zero the logarithm taken is that of the smallest positive double, `2 ^ (-1074)`. -/
theorem C101_truncLog : |truncLog 0 - log ((2 ^ 1074)⁻¹)| ≤ 1e-6 ∧ ∀ x, x ≠ 0 → truncLog x = log x := by
  refine ⟨?_, fun x hx => if_neg hx⟩
  rw [log_inv, log_pow]
  simp only [truncLog, if_true]
  have h1 := log_two_gt_d9
  have h2 := log_two_lt_d9
  rw [abs_le]
  constructor <;> push_cast <;> linarith

example : truncLog 1 = 0 := by rw [C101_truncLog.2 1 one_ne_zero, log_one]

/-- Gibbs energy of a phase, ideal gas terms of the pure components omitted. -/
noncomputable def gibbs (R T : ℝ) (x lnphis : Fin N → ℝ) : ℝ := R * T * ∑ i, x i * (truncLog (x i) + lnphis i)

/-- **C101.** The meaning of the distance: splitting a mixture into phases changes its Gibbs energy by the distances of
the phases, weighted with their amounts. -/
theorem C101_TPD_split {M : ℕ} (R T : ℝ) (z lnphis : Fin N → ℝ) (beta : Fin M → ℝ) (y lnphisY : Fin M → Fin N → ℝ)
    (hz : ∀ i, ∑ k, beta k * y k i = z i) :
    (∑ k, beta k * gibbs R T (y k) (lnphisY k)) - gibbs R T z lnphis = ∑ k, beta k * TPD R T z lnphis (y k) (lnphisY k) := by
  simp only [TPD_eq, gibbs]
  have e : ∀ k, beta k * (R * T * ∑ i, y k i * (truncLog (y k i) + lnphisY k i - (truncLog (z i) + lnphis i))) =
      beta k * (R * T * ∑ i, y k i * (truncLog (y k i) + lnphisY k i)) -
        R * T * ∑ i, beta k * y k i * (truncLog (z i) + lnphis i) := by
    intro k
    simp only [mul_sub, sum_sub_distrib, mul_assoc, ← mul_sum]
    ring
  simp only [e, sum_sub_distrib, ← mul_sum]
  congr 1
  rw [sum_comm]
  congr 1
  refine sum_congr rfl fun i _ => ?_
  rw [← hz i, sum_mul]

/-- **C101.** A mixture with no negative distance cannot lower its Gibbs energy by splitting. -/
theorem C101_TPD_stable {M : ℕ} (R T : ℝ) (z lnphis : Fin N → ℝ) (beta : Fin M → ℝ) (hb : ∀ k, 0 ≤ beta k)
    (y lnphisY : Fin M → Fin N → ℝ) (hz : ∀ i, ∑ k, beta k * y k i = z i)
    (h : ∀ k, 0 ≤ TPD R T z lnphis (y k) (lnphisY k)) :
    gibbs R T z lnphis ≤ ∑ k, beta k * gibbs R T (y k) (lnphisY k) := by
  have e := C101_TPD_split R T z lnphis beta y lnphisY hz
  have : 0 ≤ ∑ k, beta k * TPD R T z lnphis (y k) (lnphisY k) := sum_nonneg fun k _ => mul_nonneg (hb k) (h k)
  linarith

/-- **C101.** An ideal mixture is stable: with equal fugacity coefficients the distance is not negative, and zero only
for the composition of the mixture. Fractions of the trial phase are zero or not unusually small. -/
theorem C101_TPD_ideal {R T : ℝ} (hR : 0 < R) (hT : 0 < T) (zs ys lnphis : Fin N → ℝ) (hz : ∀ i, 0 ≤ zs i)
    (hy : ∀ i, ys i = 0 ∨ exp (-743) ≤ ys i) (sz : ∑ i, zs i = 1) (sy : ∑ i, ys i = 1) :
    0 ≤ TPD R T zs lnphis ys lnphis ∧ (TPD R T zs lnphis ys lnphis = 0 ↔ ys = zs) := by
  have hterm : ∀ i, ys i - zs i ≤ ys i * (truncLog (ys i) + lnphis i - (truncLog (zs i) + lnphis i)) ∧
      (ys i * (truncLog (ys i) + lnphis i - (truncLog (zs i) + lnphis i)) = ys i - zs i → ys i = zs i) := by
    intro i
    rcases hy i with h0 | h0
    · rw [h0]
      constructor
      · have := hz i; linarith
      · intro h; linarith
    · have hp : 0 < ys i := lt_of_lt_of_le (exp_pos _) h0
      rcases (hz i).eq_or_lt with e | e
      · rw [← e]
        have hl : -743 ≤ log (ys i) := by
          rw [le_log_iff_exp_le hp]; exact h0
        have hbig : 1 < truncLog (ys i) + lnphis i - (truncLog 0 + lnphis i) := by
          simp only [truncLog, hp.ne', if_false, if_true]
          linarith
        constructor
        · nlinarith
        · intro h; nlinarith
      · simp only [truncLog, hp.ne', e.ne', if_false]
        have hk : log (ys i) + lnphis i - (log (zs i) + lnphis i) = -log (zs i / ys i) := by
          rw [log_div e.ne' hp.ne']; ring
        rw [hk]
        have hq : 0 < zs i / ys i := div_pos e hp
        have hmul : ys i * (zs i / ys i) = zs i := mul_div_cancel₀ _ hp.ne'
        constructor
        · have := log_le_sub_one_of_pos hq
          nlinarith
        · intro h
          by_contra hne
          have hq1 : zs i / ys i ≠ 1 := fun h1 => hne (by rw [h1, mul_one] at hmul; exact hmul)
          have := log_lt_sub_one_of_pos hq hq1
          nlinarith
  have hsum : ∑ i, (ys i - zs i) = 0 := by rw [sum_sub_distrib, sy, sz, sub_self]
  have h0 : 0 ≤ ∑ i, ys i * (truncLog (ys i) + lnphis i - (truncLog (zs i) + lnphis i)) := by
    rw [← hsum]; exact sum_le_sum fun i _ => (hterm i).1
  rw [TPD_eq]
  refine ⟨by positivity, fun h => ?_, fun h => ?_⟩
  · have hs : ∑ i, ys i * (truncLog (ys i) + lnphis i - (truncLog (zs i) + lnphis i)) = ∑ i, (ys i - zs i) := by
      rw [hsum]
      exact (mul_eq_zero.1 h).resolve_left (mul_pos hR hT).ne'
    funext i
    refine (hterm i).2 ?_
    have := (sum_eq_sum_iff_of_le fun i _ => (hterm i).1).1 hs.symm i (mem_univ i)
    exact this.symm
  · rw [h]; simp

example : ∃ zs ys : Fin 2 → ℝ, (∀ i, 0 ≤ zs i) ∧ (∀ i, ys i = 0 ∨ exp (-743) ≤ ys i) ∧ ∑ i, zs i = 1 ∧ ∑ i, ys i = 1 ∧
    ys ≠ zs := by
  refine ⟨![1 / 2, 1 / 2], ![0, 1], ?_, ?_, by norm_num [Fin.sum_univ_two], by norm_num [Fin.sum_univ_two], ?_⟩
  · intro i; fin_cases i <;> simp
  · intro i; fin_cases i
    · exact .inl rfl
    · exact .inr (by simp)
  · intro h; have := congrFun h 0; norm_num at this

/-- **C101.** The function of Stateva and Tsvetkov is not negative, and its zeros among positive compositions are
exactly the trial phases whose fugacities are proportional to those of the mixture, the stationary points. -/
theorem C101_stateva (hN : 0 < N) (lnphis zs lnphisTrial ys : Fin N → ℝ) (hz : ∀ i, 0 < zs i) (hy : ∀ i, 0 < ys i) :
    ∃ v, stateva lnphis zs lnphisTrial ys = some v ∧ 0 ≤ v ∧
      (v = 0 ↔ ∃ c : ℝ, 0 < c ∧ ∀ i, ys i * exp (lnphisTrial i) = c * (zs i * exp (lnphis i))) := by
  set k := ki lnphis zs lnphisTrial ys with hk
  have hv : stateva lnphis zs lnphisTrial ys = some (∑ i, (k (next hN i) - k i) * (k (next hN i) - k i)) := by
    rw [stateva, dif_pos hN]
  have hke : ∀ i, k i = lnphisTrial i + log (ys i) - (lnphis i + log (zs i)) := by
    intro i; simp only [hk, ki, log690, hz i, hy i, if_true]
  refine ⟨_, hv, sum_nonneg fun i _ => mul_self_nonneg _, ?_⟩
  rw [sum_eq_zero_iff_of_nonneg fun i _ => mul_self_nonneg _]
  constructor
  · intro h
    have hall : ∀ j, ∀ hj : j < N, k ⟨j, hj⟩ = k ⟨0, hN⟩ := by
      intro j
      induction j with
      | zero => intro hj; rfl
      | succ j ih =>
        intro hj
        have := h ⟨j, by omega⟩ (mem_univ _)
        rw [mul_self_eq_zero, sub_eq_zero] at this
        rw [← ih (by omega), ← this]
        simp [next, hj]
    refine ⟨exp (k ⟨0, hN⟩), exp_pos _, fun i => ?_⟩
    have hi : k i = k ⟨0, hN⟩ := hall i.1 i.2
    rw [← hi, hke]
    rw [show ys i * exp (lnphisTrial i) = exp (log (ys i) + lnphisTrial i) by rw [exp_add, exp_log (hy i)],
      show zs i * exp (lnphis i) = exp (log (zs i) + lnphis i) by rw [exp_add, exp_log (hz i)], ← exp_add]
    congr 1
    ring
  · rintro ⟨c, hc, h⟩ i -
    have hc' : ∀ i, k i = log c := by
      intro i
      have e := congrArg log (h i)
      rw [log_mul (hy i).ne' (exp_ne_zero _), log_mul hc.ne' (mul_pos (hz i) (exp_pos _)).ne',
        log_mul (hz i).ne' (exp_ne_zero _), log_exp, log_exp] at e
      rw [hke]
      linarith
    rw [hc', hc', sub_self, mul_zero]

example : ∃ zs lnphis ys lnphisTrial : Fin 2 → ℝ, (∀ i, 0 < zs i) ∧ (∀ i, 0 < ys i) ∧ ys ≠ zs ∧
    ∀ i, ys i * exp (lnphisTrial i) = 2 * (zs i * exp (lnphis i)) := by
  refine ⟨![1 / 2, 1 / 2], ![0, 0], ![1 / 4, 3 / 4], ![log 4, log (4 / 3)], ?_, ?_, ?_, ?_⟩
  · intro i; fin_cases i <;> simp
  · intro i; fin_cases i <;> simp
  · intro h; have := congrFun h 0; norm_num at this
  · intro i; fin_cases i
    · change (1 / 4 : ℝ) * exp (log 4) = 2 * (1 / 2 * exp 0)
      rw [exp_zero, exp_log (by norm_num)]; norm_num
    · change (3 / 4 : ℝ) * exp (log (4 / 3)) = 2 * (1 / 2 * exp 0)
      rw [exp_zero, exp_log (by norm_num)]; norm_num

/-- **C101, refuted.** Without positivity there are zeros that are no compositions: all fractions negative. -/
theorem C101_stateva_fails : stateva (N := 2) ![0, 0] ![1 / 2, 1 / 2] ![0, 0] ![-1, -2] = some 0 := by
  have h : ∀ i, ki (N := 2) ![0, 0] ![1 / 2, 1 / 2] ![0, 0] ![-1, -2] i = -690 - log (1 / 2) := by
    intro i; fin_cases i <;> simp [ki, log690]
  rw [stateva, dif_pos (by norm_num)]
  simp only [h, sub_self, mul_zero, sum_const_zero]

/-! ## Theorems on balances -/

theorem close_comm {r a x y : ℝ} : close r a x y ↔ close r a y x := by
  unfold close
  rw [abs_sub_comm, max_comm |x|, eq_comm]

section
variable {C E : Type} [DecidableEq C] [DecidableEq E]

omit [DecidableEq E] in
theorem mem_mixComps {l : List (Flow C E)} {c : C} : c ∈ mixComps l ↔ ∃ s ∈ l, c ∈ s.comps := by
  unfold mixComps
  induction l with
  | nil => simp
  | cons a r ih => simp [ih]

omit [DecidableEq C] in
theorem mem_mixElements {l : List (Flow C E)} {c : E} : c ∈ mixElements l ↔ ∃ s ∈ l, c ∈ s.elements := by
  unfold mixElements
  induction l with
  | nil => simp
  | cons a r ih => simp [ih]

/-- **C101.** The check of components passes exactly if the same components enter and leave, each with flows that
agree within the tolerances. -/
theorem C101_components (rtol atol : ℝ) (inlets outlets : List (Flow C E)) (hne : inlets ≠ [] ∨ outlets ≠ []) :
    componentBalance rtol atol false inlets outlets = .pass ↔
      (∀ c, (∃ s ∈ inlets, c ∈ s.comps) ↔ ∃ s ∈ outlets, c ∈ s.comps) ∧
      ∀ c, (∃ s ∈ inlets, c ∈ s.comps) → close rtol atol
        (inlets.map fun s => if c ∈ s.comps then s.n * s.z c else 0).sum
        (outlets.map fun s => if c ∈ s.comps then s.n * s.z c else 0).sum := by
  have he : ¬ (inlets = [] ∧ outlets = []) := by tauto
  have hset : mixComps inlets = mixComps outlets ↔
      ∀ c, (∃ s ∈ inlets, c ∈ s.comps) ↔ ∃ s ∈ outlets, c ∈ s.comps := by
    rw [Finset.ext_iff]
    simp only [mem_mixComps]
  unfold componentBalance
  rw [if_neg he]
  simp only [Bool.false_eq_true, if_false]
  rw [← hset]
  by_cases h1 : mixComps inlets = mixComps outlets
  · rw [if_neg (not_not.2 h1)]
    by_cases h2 : ∃ c ∈ mixComps inlets, ¬ close rtol atol (mixFlow inlets c) (mixFlow outlets c)
    · rw [if_pos h2]
      obtain ⟨c, hc, hn⟩ := h2
      simp only [reduceCtorEq, false_iff, not_and, not_forall]
      exact fun _ => ⟨c, mem_mixComps.1 hc, hn⟩
    · rw [if_neg h2]
      push Not at h2
      simp only [true_iff]
      exact ⟨h1, fun c hc => h2 c (mem_mixComps.2 hc)⟩
  · rw [if_pos h1]
    simp [h1]

/-- **C101.** The check does not depend on which side is called inlet. -/
theorem C101_components_swap (rtol atol : ℝ) (inlets outlets : List (Flow C E)) :
    componentBalance rtol atol false inlets outlets = .pass ↔
      componentBalance rtol atol false outlets inlets = .pass := by
  by_cases hne : inlets ≠ [] ∨ outlets ≠ []
  · rw [C101_components _ _ _ _ hne, C101_components _ _ _ _ hne.symm]
    constructor
    · rintro ⟨h1, h2⟩
      exact ⟨fun c => (h1 c).symm, fun c hc => close_comm.1 (h2 c ((h1 c).2 hc))⟩
    · rintro ⟨h1, h2⟩
      exact ⟨fun c => (h1 c).symm, fun c hc => close_comm.1 (h2 c ((h1 c).2 hc))⟩
  · push Not at hne
    simp [componentBalance, hne]

/-- **C101.** If the check passes with a relative tolerance, the total mole flows agree within the tolerance times
their sum; flows are not negative and fractions of each stream sum to one. -/
theorem C101_components_total {rtol : ℝ} (hr : 0 ≤ rtol) (inlets outlets : List (Flow C E))
    (h : componentBalance rtol 0 false inlets outlets = .pass)
    (hn : ∀ s ∈ inlets ++ outlets, 0 ≤ s.n ∧ (∀ c, 0 ≤ s.z c) ∧ ∑ c ∈ s.comps, s.z c = 1) :
    |(inlets.map (·.n)).sum - (outlets.map (·.n)).sum| ≤
      rtol * ((inlets.map (·.n)).sum + (outlets.map (·.n)).sum) := by
  by_cases hne : inlets ≠ [] ∨ outlets ≠ []
  · obtain ⟨h1, h2⟩ := (C101_components _ _ _ _ hne).1 h
    have hU : mixComps inlets = mixComps outlets := by
      ext c; rw [mem_mixComps, mem_mixComps]; exact h1 c
    have tot : ∀ (l : List (Flow C E)) (U : Finset C), (∀ s ∈ l, s.comps ⊆ U) → (∀ s ∈ l, ∑ c ∈ s.comps, s.z c = 1) →
        (l.map (·.n)).sum = ∑ c ∈ U, mixFlow l c := by
      intro l U
      induction l with
      | nil => simp [mixFlow]
      | cons a r ih =>
        intro hs hz
        have e : ∀ c, mixFlow (a :: r) c = (if c ∈ a.comps then a.n * a.z c else 0) + mixFlow r c := by
          intro c; simp [mixFlow]
        simp only [e, sum_add_distrib]
        rw [← ih (fun s h => hs s (List.mem_cons_of_mem _ h)) (fun s h => hz s (List.mem_cons_of_mem _ h)),
          List.map_cons, List.sum_cons]
        congr 1
        rw [← sum_filter, show (U.filter fun c => c ∈ a.comps) = a.comps by
          ext c; rw [mem_filter]; exact ⟨fun h => h.2, fun h => ⟨hs a (by simp) h, h⟩⟩, ← mul_sum, hz a (by simp), mul_one]
    have sub : ∀ (l : List (Flow C E)), ∀ s ∈ l, s.comps ⊆ mixComps l := fun l s hs c hc =>
      mem_mixComps.2 ⟨s, hs, hc⟩
    have ti := tot inlets (mixComps inlets) (sub inlets) fun s hs => (hn s (List.mem_append_left _ hs)).2.2
    have to' := tot outlets (mixComps inlets) (hU ▸ sub outlets) fun s hs => (hn s (List.mem_append_right _ hs)).2.2
    have pos : ∀ (l : List (Flow C E)), (∀ s ∈ l, 0 ≤ s.n ∧ (∀ c, 0 ≤ s.z c) ∧ ∑ c ∈ s.comps, s.z c = 1) → ∀ c,
        0 ≤ mixFlow l c := by
      intro l hl c
      refine List.sum_nonneg fun x hx => ?_
      obtain ⟨s, hs, rfl⟩ := List.mem_map.1 hx
      split_ifs
      · exact mul_nonneg (hl s hs).1 ((hl s hs).2.1 c)
      · exact le_rfl
    have pi := pos inlets fun s hs => hn s (List.mem_append_left _ hs)
    have po := pos outlets fun s hs => hn s (List.mem_append_right _ hs)
    rw [ti, to', ← sum_sub_distrib, ← sum_add_distrib, mul_sum]
    refine (abs_sum_le_sum_abs _ _).trans (sum_le_sum fun c hc => ?_)
    have hcl : close rtol 0 (mixFlow inlets c) (mixFlow outlets c) := h2 c (mem_mixComps.1 hc)
    rcases hcl with e | e
    · rw [e, sub_self, abs_zero]
      exact mul_nonneg hr (add_nonneg (po c) (po c))
    · refine e.trans ?_
      rw [abs_of_nonneg (pi c), abs_of_nonneg (po c)]
      refine max_le (mul_le_mul_of_nonneg_left (max_le ?_ ?_) hr) (mul_nonneg hr (add_nonneg (pi c) (po c)))
      · linarith [po c]
      · linarith [pi c]
  · push Not at hne
    simp [hne]

/-- **C101.** Splitting an inlet into two streams of the same composition does not change the check. -/
theorem C101_components_split (rtol atol : ℝ) (s s1 s2 : Flow C E) (inlets outlets : List (Flow C E))
    (hc1 : s1.comps = s.comps) (hc2 : s2.comps = s.comps) (hz1 : s1.z = s.z) (hz2 : s2.z = s.z) (hn : s1.n + s2.n = s.n) :
    componentBalance rtol atol false (s1 :: s2 :: inlets) outlets = .pass ↔
      componentBalance rtol atol false (s :: inlets) outlets = .pass := by
  rw [C101_components _ _ _ _ (.inl (by simp)), C101_components _ _ _ _ (.inl (by simp))]
  have e1 : ∀ c, (∃ q ∈ s1 :: s2 :: inlets, c ∈ q.comps) ↔ ∃ q ∈ s :: inlets, c ∈ q.comps := by
    intro c; simp [hc1, hc2]
  have e2 : ∀ c, ((s1 :: s2 :: inlets).map fun s => if c ∈ s.comps then s.n * s.z c else 0).sum =
      ((s :: inlets).map fun s => if c ∈ s.comps then s.n * s.z c else 0).sum := by
    intro c
    simp only [List.map_cons, List.sum_cons, hc1, hc2, hz1, hz2, ← hn]
    split_ifs <;> ring
  simp only [e1, e2]

/-- **C101.** The reactive check passes only if the masses agree to nine digits and every element leaves as it
enters. -/
theorem C101_reactive {rtol atol : ℝ} {inlets outlets : List (Flow C E)} (hne : inlets ≠ [] ∨ outlets ≠ [])
    (h : componentBalance rtol atol true inlets outlets = .pass) :
    close 1e-9 0 (inlets.map (·.m)).sum (outlets.map (·.m)).sum ∧
    (∀ e, (∃ s ∈ inlets, e ∈ s.elements) ↔ ∃ s ∈ outlets, e ∈ s.elements) ∧
    ∀ e, (∃ s ∈ inlets, e ∈ s.elements) → close rtol atol
      (inlets.map fun s => if e ∈ s.elements then s.atoms e else 0).sum
      (outlets.map fun s => if e ∈ s.elements then s.atoms e else 0).sum := by
  have he : ¬ (inlets = [] ∧ outlets = []) := by tauto
  unfold componentBalance at h
  rw [if_neg he] at h
  simp only [if_true] at h
  split_ifs at h with h1 h2 h3 h4 h5
  rw [not_not] at h5
  push Not at h3 h4
  refine ⟨h1, fun e => ?_, fun e hm => h3 e (mem_mixElements.2 hm) (h4 e (mem_mixElements.2 hm))⟩
  rw [← mem_mixElements, ← mem_mixElements, h5]

end

/-- A stream of one component and one element. -/
noncomputable def flow1 (c : Fin 3) (n m : ℝ) (e : ℝ) : Flow (Fin 3) (Fin 2) :=
  ⟨{c}, n, fun _ => 1, m, {0}, fun _ => e, 0, 0, 0, 18⟩

example : componentBalance 0 0 false [flow1 0 1 1 1, flow1 0 2 2 2] [flow1 0 3 3 3] = .pass := by
  rw [C101_components _ _ _ _ (.inl (by simp))]
  refine ⟨fun c => by simp [flow1], fun c hc => .inl ?_⟩
  have : c = 0 := by simpa [flow1] using hc
  subst this
  simp [flow1]
  norm_num

/-- The hypotheses of `C101_components_total` on the streams of the example above. -/
example : ∀ s ∈ [flow1 0 1 1 1, flow1 0 2 2 2] ++ [flow1 0 3 3 3],
    0 ≤ s.n ∧ (∀ c, 0 ≤ s.z c) ∧ ∑ c ∈ s.comps, s.z c = 1 := by
  intro s hs
  simp only [List.cons_append, List.nil_append, List.mem_cons, List.not_mem_nil, or_false] at hs
  rcases hs with rfl | rfl | rfl <;> simp [flow1]

example : componentBalance 0 0 true [flow1 0 1 1 1, flow1 0 2 2 2] [flow1 0 3 3 3] = .pass := by
  have hm : close 1e-9 0 ([flow1 0 1 1 1, flow1 0 2 2 2].map (·.m)).sum ([flow1 0 3 3 3].map (·.m)).sum :=
    .inl (by simp [flow1]; norm_num)
  have hc : mixComps [flow1 0 1 1 1, flow1 0 2 2 2] = mixComps [flow1 0 3 3 3] := by
    ext c; simp [mem_mixComps, flow1]
  have he : mixElements [flow1 0 1 1 1, flow1 0 2 2 2] = mixElements [flow1 0 3 3 3] := by
    ext c; simp [mem_mixElements, flow1]
  have ha : ∀ e, close 0 0 (mixAtoms [flow1 0 1 1 1, flow1 0 2 2 2] e) (mixAtoms [flow1 0 3 3 3] e) := by
    intro e
    left
    simp only [mixAtoms, flow1, List.map_cons, List.map_nil, List.sum_cons, List.sum_nil]
    split_ifs <;> norm_num
  unfold componentBalance
  rw [if_neg (by simp)]
  simp only [if_true, hm, hc, he, ha, not_true_eq_false, if_false, ne_eq, and_false, exists_false]
  simp

/-- **C101, refuted.** A component present on one side only, with flow zero, makes the check fail although all flows
balance. -/
theorem C101_components_zero_fails : componentBalance 1e-9 1 false [flow1 0 1 1 1, flow1 1 0 0 0] [flow1 0 1 1 1] =
      .valueError ∧
    ∀ c, mixFlow [flow1 0 1 1 1, flow1 1 0 0 0] c = mixFlow [flow1 0 1 1 1] c := by
  constructor
  · have : mixComps [flow1 0 1 1 1, flow1 1 0 0 0] ≠ mixComps [flow1 0 1 1 1] := by
      rw [Ne, Finset.ext_iff]
      intro h
      have := (h 1).1 (by simp [mem_mixComps, flow1])
      simp [mem_mixComps, flow1] at this
    simp [componentBalance, this]
  · intro c
    simp only [mixFlow, flow1, List.map_cons, List.map_nil, List.sum_cons, List.sum_nil, mem_singleton]
    split_ifs <;> simp

/-- **C101, refuted.** The reactive check rejects every reaction that uses up a component or forms a new one, although
mass and elements balance: an isomerisation. -/
theorem C101_reactive_fails : componentBalance 1e-9 0 true [flow1 0 1 1 1] [flow1 1 1 1 1] = .exception ∧
    mixElements [flow1 0 1 1 1] = mixElements [flow1 1 1 1 1] ∧
    ∀ e, mixAtoms [flow1 0 1 1 1] e = mixAtoms [flow1 1 1 1 1] e := by
  have hc : mixComps [flow1 0 1 1 1] ≠ mixComps [flow1 1 1 1 1] := by
    rw [Ne, Finset.ext_iff]
    intro h
    have := (h 1).2 (by simp [mem_mixComps, flow1])
    simp [mem_mixComps, flow1] at this
  have hm : close 1e-9 0 ([flow1 0 1 1 1].map (·.m)).sum ([flow1 1 1 1 1].map (·.m)).sum := .inl (by simp [flow1])
  refine ⟨?_, rfl, fun e => rfl⟩
  unfold componentBalance
  rw [if_neg (by simp)]
  simp only [if_true, not_true_eq_false, if_false, hm, hc, ne_eq, not_false_eq_true]

/-- **C101, refuted.** The tolerances given do not apply to the mass of the reactive check: 1.001 against 1 with a
relative tolerance of one half. -/
theorem C101_reactive_tolerance_fails :
    componentBalance (1 / 2) 1 true [flow1 0 1 1.001 1] [flow1 0 1 1 1] = .assertionError := by
  have hm : ¬ close 1e-9 0 ([flow1 0 1 1.001 1].map (·.m)).sum ([flow1 0 1 1 1].map (·.m)).sum := by
    simp only [flow1, List.map_cons, List.map_nil, List.sum_cons, List.sum_nil, close]
    norm_num
  unfold componentBalance
  rw [if_neg (by simp)]
  simp only [if_true, hm, not_false_eq_true]

section
variable {C E : Type}

/-- **C101.** The kinetic energy added for a stream is half its mass flow times its velocity squared. -/
theorem C101_kinetic (s : Flow C E) (A : ℝ) (hM : 0 ≤ s.MW) :
    kinetic (some [A]) [s] = 1 / 2 * (s.n * s.MW / 1000) * (s.Q / A) ^ 2 := by
  have h : sqrt (s.MW * (1 / 1000)) * sqrt (s.MW * (1 / 1000)) = s.MW * (1 / 1000) := mul_self_sqrt (by positivity)
  simp only [kinetic, molarVelocity, List.zip_cons_cons, List.zip_nil_right, List.map_cons, List.map_nil, List.sum_cons,
    List.sum_nil, add_zero]
  linear_combination (0.5 * (s.Q / A) ^ 2 * s.n) * h

/-- **C101.** The energy check compares enthalpy, duties and kinetic energy of the two sides, within the tolerances;
all areas given. -/
theorem C101_energy (rtol atol : ℝ) (reactive : Bool) (inlets outlets : List (Flow C E)) (dutiesIn dutiesOut : List ℝ)
    (zin zout : Option (List ℝ)) (Ain Aout : Flow C E → ℝ) (hM : ∀ s ∈ inlets ++ outlets, 0 ≤ s.MW) :
    energyBalance rtol atol reactive inlets outlets dutiesIn dutiesOut (some (inlets.map Ain)) (some (outlets.map Aout))
        zin zout ↔
      close rtol atol
        ((inlets.map fun s => (if reactive then s.energyReactive else s.energy) +
          1 / 2 * (s.n * s.MW / 1000) * (s.Q / Ain s) ^ 2).sum + dutiesIn.sum)
        ((outlets.map fun s => (if reactive then s.energyReactive else s.energy) +
          1 / 2 * (s.n * s.MW / 1000) * (s.Q / Aout s) ^ 2).sum + dutiesOut.sum) := by
  have hside : ∀ (l : List (Flow C E)) (A : Flow C E → ℝ) (d : List ℝ), (∀ s ∈ l, 0 ≤ s.MW) →
      side reactive l d (some (l.map A)) = (l.map fun s => (if reactive then s.energyReactive else s.energy) +
          1 / 2 * (s.n * s.MW / 1000) * (s.Q / A s) ^ 2).sum + d.sum := by
    intro l A d
    induction l with
    | nil => simp [side, kinetic]
    | cons a r ih =>
      intro h
      have h1 := ih fun s hs => h s (List.mem_cons_of_mem _ hs)
      have h2 := C101_kinetic a (A a) (h a (by simp))
      simp only [side, kinetic, List.map_cons, List.zip_cons_cons, List.sum_cons, List.zip_nil_right, List.map_nil,
        List.sum_nil] at h1 h2 ⊢
      linarith
  unfold energyBalance
  rw [hside _ _ _ fun s hs => hM s (List.mem_append_left _ hs), hside _ _ _ fun s hs => hM s (List.mem_append_right _ hs)]

end

/-- **C101, refuted.** Elevations are ignored: a stream lifted by a kilometre without work passes with tolerance zero. -/
theorem C101_elevation_fails : energyBalance 0 0 false [flow1 0 1 1 1] [flow1 0 1 1 1] [] [] none none (some [0])
    (some [1000]) := .inl rfl

/-- **C101, refuted.** If fewer areas than streams are given the kinetic energy of the others is left out silently. -/
theorem C101_areas_fails (s t : Flow (Fin 3) (Fin 2)) (A : ℝ) : kinetic (some [A]) [s, t] = kinetic (some [A]) [s] := by
  simp [kinetic]

end Verif.Functional
