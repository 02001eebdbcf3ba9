import Mathlib.Tactic
import Mathlib.Analysis.SpecialFunctions.Log.Basic
import Mathlib.Analysis.SpecialFunctions.Pow.Real
import Verif.TDep.Construct
import Verif.TDep.Fits
import Verif.TDep.Fitting

/-!
# Pressure correlations and exported polynomial fits (C152)

* `thermo/utils/tp_dependent_property.py`: the constructor (92-137), `add_P_correlation` (148-161), the setter of the method for
  pressures (176-182), the registration of tables (378-382).
* `thermo/utils/t_dependent_property.py`: `_fit_export_polynomials` (2003-2040), `polynomial_from_method` (2046-2099),
  `polynomial_from_data` (2101-2106), `_generate_polynomial` (2108-2166).
* `thermo/volume.py`: `Tait_parameters_COSTALD` (163-185), without the Chebyshev approximation of its function.

The part of the constructor for temperatures alone is C124; here its result is given (names of methods, selected method).  Sets of names are
lists without duplicates.  The fit itself and its statistics are arguments.  Files are the list of documents written, in order.
-/

namespace Verif.Exports

open Verif.Construct Real

/-! ## Pressure correlations -/

/-- Keywords of one pressure correlation (159): each of the three read may be absent. -/
structure Corr where
  coeffs : Option (List ℚ)
  nTerms : Option ℕ
  nT : Option ℕ
  deriving DecidableEq

/-- What is read of the object: methods for temperature, methods for pressure, the dictionary `Tait_parameters` (absent before first use)
and `P_correlations`. -/
structure Obj where
  all : List String
  method : Option String
  allP : List String
  methodP : Option String
  params : Option (Dict Corr) := none
  corrs : Dict (List ℚ × ℕ × ℕ) := []
  deriving DecidableEq

/-- `set.add`. -/
def add (l : List String) (n : String) : List String := if n ∈ l then l else l ++ [n]

/-- `args` of `add_P_correlation` (159); `none` is `KeyError`. -/
def args (c : Corr) : Option (List ℚ × ℕ × ℕ) := match c.coeffs, c.nTerms, c.nT with
  | some l, some n, some k => some (l, n, k)
  | _, _, _ => none

/-- `add_P_correlation` (148-161): the object afterwards, and whether it came to its end without an exception. -/
def addP (o : Obj) (name : String) (c : Corr) : Obj × Bool :=
  let o1 := { o with params := some ((o.params.getD []).set name c), all := add o.all name, method := some name }
  match args c with
  | some a => ({ o1 with corrs := o1.corrs.set name a }, true)
  | none => (o1, false)

/-- The loop over the correlations given to the constructor (115-123). -/
def addAllP : Dict Corr → Obj → Option Obj
  | [], o => some o
  | p :: l, o => if (addP o p.1 p.2).2 then addAllP l (addP o p.1 p.2).1 else none

/-- The setter of the method (176-182); `none` is an exception. -/
def setP (o : Obj) (m : Option String) : Option Obj := match m with
  | none => some { o with methodP := none }
  | some n => if n ∈ o.allP then some { o with methodP := some n } else none

/-- Registration of a table (380-382). -/
def addTableP (o : Obj) (n : String) : Obj := { o with allP := add o.allP n, methodP := some n }

/-- The method looked up at the end of the constructor (131-136): the keyword, else the method selected by a table, else by rank. -/
def chosenP (o : Obj) (ranked : List String) (given : Option (Option String)) : Option String :=
  match given.getD o.methodP with
  | some m => some m
  | none => ranked.find? (· ∈ o.allP)

/-- The constructor (107-137) after the part for temperatures: correlations, tables, selection. -/
def construct (o : Obj) (corrs : Dict Corr) (tables ranked : List String) (given : Option (Option String)) : Option Obj :=
  match addAllP corrs o with
  | none => none
  | some o1 => setP (tables.foldl addTableP o1) (chosenP (tables.foldl addTableP o1) ranked given)

theorem addP_allP (o : Obj) (n : String) (c : Corr) : (addP o n c).1.allP = o.allP ∧ (addP o n c).1.methodP = o.methodP ∧ (addP o n c).1.method = some n ∧
    (∀ x, x ∈ (addP o n c).1.all ↔ x ∈ o.all ∨ x = n) := by
  have h : ∀ x, x ∈ add o.all n ↔ x ∈ o.all ∨ x = n := by
    intro x; unfold add; split_ifs with h
    · exact ⟨Or.inl, fun h' => h'.elim id fun e => e ▸ h⟩
    · simp
  unfold addP
  dsimp only
  cases args c <;> exact ⟨rfl, rfl, rfl, h⟩

/-- **C152.** A complete correlation is stored: its coefficients and counts are found under its name, the other correlations are as before, the keywords
are kept for printing, and nothing that concerns pressures changes. -/
theorem C152_stored (o : Obj) (n : String) (l : List ℚ) (i k : ℕ) :
    (addP o n ⟨some l, some i, some k⟩).2 = true ∧
    (∀ x, (addP o n ⟨some l, some i, some k⟩).1.corrs.get x = if x = n then some (l, i, k) else o.corrs.get x) ∧
    (∀ x, ((addP o n ⟨some l, some i, some k⟩).1.params.getD []).get x = if x = n then some ⟨some l, some i, some k⟩ else (o.params.getD []).get x) ∧
    (addP o n ⟨some l, some i, some k⟩).1.allP = o.allP ∧ (addP o n ⟨some l, some i, some k⟩).1.methodP = o.methodP := by
  refine ⟨rfl, fun x => ?_, fun x => ?_, rfl, rfl⟩
  · show (o.corrs.set n (l, i, k)).get x = _
    rw [get_set]
  · show ((o.params.getD []).set n _).get x = _
    rw [get_set]

/-- **C152.** Exactly the correlations with all three entries are accepted. -/
theorem C152_complete (o : Obj) (n : String) (c : Corr) : (addP o n c).2 = true ↔ c.coeffs ≠ none ∧ c.nTerms ≠ none ∧ c.nT ≠ none := by
  unfold addP args
  obtain ⟨a, b, d⟩ := c
  cases a <;> cases b <;> cases d <;> simp

/-- **C152 fails.** A correlation that raises for a missing entry is nevertheless selected, and kept among the methods. -/
theorem C152_half_added_fails : let r := addP ⟨["VDI_PPDS"], some "VDI_PPDS", ["COSTALD_COMPRESSED"], some "COSTALD_COMPRESSED", none, []⟩ "mine" ⟨some [1], none, some 2⟩
    r.2 = false ∧ r.1.method = some "mine" ∧ "mine" ∈ r.1.all ∧ r.1.corrs = [] := by decide +kernel

/-- **C152 fails.** A pressure correlation cannot be selected as the method for pressures, whatever the object; instead it becomes the method for temperatures, for which it has no formula. -/
theorem C152_not_selectable_fails (o : Obj) (n : String) (c : Corr) (h : n ∉ o.allP) :
    setP (addP o n c).1 (some n) = none ∧ (addP o n c).1.method = some n := by
  obtain ⟨h1, _, h3, _⟩ := addP_allP o n c
  refine ⟨?_, h3⟩
  unfold setP
  simp only [h1]
  rw [if_neg h]

example : setP (addP ⟨["VDI_PPDS"], some "VDI_PPDS", ["COSTALD_COMPRESSED"], none, none, []⟩ "mine" ⟨some [1], some 1, some 2⟩).1 (some "mine") = none ∧
    setP (addP ⟨["VDI_PPDS"], some "VDI_PPDS", ["COSTALD_COMPRESSED"], none, none, []⟩ "mine" ⟨some [1], some 1, some 2⟩).1 (some "COSTALD_COMPRESSED") ≠ none :=
  ⟨(C152_not_selectable_fails _ _ _ (by decide)).1, by decide +kernel⟩

theorem addAllP_last (l : Dict Corr) (p : String × Corr) (o o' : Obj) (h : addAllP (l ++ [p]) o = some o') : o'.method = some p.1 := by
  induction l generalizing o with
  | nil =>
    simp only [List.nil_append, addAllP] at h
    split_ifs at h with h1
    rw [← Option.some.inj h]
    exact (addP_allP o p.1 p.2).2.2.1
  | cons q l ih =>
    simp only [List.cons_append, addAllP] at h
    split_ifs at h with h1
    exact ih _ h

theorem addAllP_P (l : Dict Corr) (o o' : Obj) (h : addAllP l o = some o') : o'.allP = o.allP ∧ o'.methodP = o.methodP ∧ (∀ n, n ∈ o.all → n ∈ o'.all) ∧ (l = [] → o' = o) := by
  induction l generalizing o with
  | nil => cases h; exact ⟨rfl, rfl, fun _ h => h, fun _ => rfl⟩
  | cons q l ih =>
    simp only [addAllP] at h
    split_ifs at h with h1
    obtain ⟨a, b, c, _⟩ := ih _ h
    obtain ⟨d, e, _, f⟩ := addP_allP o q.1 q.2
    exact ⟨a.trans d, b.trans e, fun n hn => c n ((f n).mpr (Or.inl hn)), by simp⟩

theorem setP_same (o o' : Obj) (m : Option String) (h : setP o m = some o') : o'.method = o.method ∧ o'.allP = o.allP ∧ o'.methodP = m ∧ o'.all = o.all ∧ ∀ n, m = some n → n ∈ o.allP := by
  cases m with
  | none => cases h; exact ⟨rfl, rfl, rfl, rfl, by simp⟩
  | some n =>
    simp only [setP] at h
    split_ifs at h with h1
    cases h
    exact ⟨rfl, rfl, rfl, rfl, fun x hx => Option.some.inj hx ▸ h1⟩

theorem tables_method (t : List String) (o : Obj) : (t.foldl addTableP o).method = o.method ∧ (t.foldl addTableP o).all = o.all ∧
    (∀ n, n ∈ (t.foldl addTableP o).allP ↔ n ∈ o.allP ∨ n ∈ t) ∧ (t.foldl addTableP o).methodP = t.getLast?.or o.methodP := by
  induction t using List.reverseRecOn with
  | nil => simp
  | append_singleton t n ih =>
    obtain ⟨a, b, c, _⟩ := ih
    rw [List.foldl_append]
    refine ⟨a, b, fun x => ?_, by simp [addTableP]⟩
    show x ∈ add _ n ↔ _
    unfold add
    split_ifs with h
    · rw [c]; simp only [List.mem_append, List.mem_singleton]
      rw [c] at h
      constructor
      · rintro (h' | h'); exacts [Or.inl h', Or.inr (Or.inl h')]
      · rintro (h' | h' | h')
        exacts [Or.inl h', Or.inr h', h' ▸ h]
    · simp only [List.mem_append, List.mem_singleton, c]; tauto

/-- **C152.** After construction the method for pressures is one of the available ones: the one asked for; if none is asked for, the last table given; else the first available in rank.
Asking for one that is not available is an error. -/
theorem C152_selection (o : Obj) (corrs : Dict Corr) (tables ranked : List String) (given : Option (Option String)) (o' : Obj) (h0 : o.methodP = none)
    (h : construct o corrs tables ranked given = some o') :
    (∀ n, o'.methodP = some n → n ∈ o.allP ∨ n ∈ tables) ∧ (∀ n, n ∈ o'.allP ↔ n ∈ o.allP ∨ n ∈ tables) ∧
    (∀ n, given = some (some n) → o'.methodP = some n) ∧
    (given = none → ∀ n, tables.getLast? = some n → o'.methodP = some n) ∧
    (given = none → tables = [] → o'.methodP = ranked.find? (· ∈ o.allP)) ∧
    (given = some none → o'.methodP = ranked.find? (fun n => n ∈ o.allP ∨ n ∈ tables)) := by
  unfold construct at h
  cases h1 : addAllP corrs o with
  | none => rw [h1] at h; cases h
  | some o1 =>
    rw [h1] at h
    obtain ⟨a, b, _, _⟩ := addAllP_P _ _ _ h1
    obtain ⟨_, c, d, _, e⟩ := setP_same _ _ _ h
    obtain ⟨_, _, f, g⟩ := tables_method tables o1
    rw [b, h0] at g
    rw [a] at f
    have hr : ∀ l : List String, l.find? (fun x => decide (x ∈ (tables.foldl addTableP o1).allP)) = l.find? (fun x => decide (x ∈ o.allP ∨ x ∈ tables)) := by
      intro l; congr 1; funext x; simp only [f]
    refine ⟨fun n hn => ?_, fun n => by rw [c]; exact f n, fun n hn => ?_, fun hn n hl => ?_, fun hn hl => ?_, fun hn => ?_⟩
    · exact (f n).mp (e n (d ▸ hn))
    · rw [d, hn]; rfl
    · rw [d, hn]; unfold chosenP
      rw [Option.getD_none, g, hl]; rfl
    · rw [d, hn]; unfold chosenP
      rw [Option.getD_none, g, hl]
      subst hl
      simp only [List.getLast?_nil, Option.none_or]
      congr 1; funext x; simp [a]
    · rw [d, hn]; unfold chosenP
      simp only [Option.getD_some]
      exact hr ranked

example : (construct ⟨["VDI_PPDS"], some "VDI_PPDS", ["COSTALD_COMPRESSED", "NEGLECT_P"], none, none, []⟩ [] ["tab"] ["COOLPROP", "COSTALD_COMPRESSED", "NEGLECT_P"] none).map (·.methodP) = some (some "tab") ∧
    (construct ⟨["VDI_PPDS"], some "VDI_PPDS", ["COSTALD_COMPRESSED", "NEGLECT_P"], none, none, []⟩ [] [] ["COOLPROP", "COSTALD_COMPRESSED", "NEGLECT_P"] none).map (·.methodP) = some (some "COSTALD_COMPRESSED") ∧
    construct ⟨["VDI_PPDS"], some "VDI_PPDS", ["COSTALD_COMPRESSED", "NEGLECT_P"], none, none, []⟩ [] [] ["COOLPROP", "COSTALD_COMPRESSED", "NEGLECT_P"] (some (some "COOLPROP")) = none := by decide +kernel

/-- **C152.** Without pressure correlations the method for temperatures and its alternatives are those of the part for temperatures. Tables change them in no case. -/
theorem C152_temperature (o : Obj) (tables ranked : List String) (given : Option (Option String)) (o' : Obj) (h : construct o [] tables ranked given = some o') :
    o'.method = o.method ∧ o'.all = o.all := by
  unfold construct at h
  simp only [addAllP] at h
  obtain ⟨a, _, _, b, _⟩ := setP_same _ _ _ h
  obtain ⟨c, d, _, _⟩ := tables_method tables o
  exact ⟨a.trans c, b.trans d⟩

/-- **C152 fails.** With a pressure correlation the method for temperatures asked for (the one the first part selected) is never the one in use, unless of the same name. -/
theorem C152_method_lost_fails (o : Obj) (corrs : Dict Corr) (p : String × Corr) (tables ranked : List String) (given : Option (Option String)) (o' : Obj) (m : String)
    (_ : o.method = some m) (hne : m ≠ p.1) (h : construct o (corrs ++ [p]) tables ranked given = some o') : o'.method = some p.1 ∧ o'.method ≠ some m := by
  unfold construct at h
  cases h1 : addAllP (corrs ++ [p]) o with
  | none => rw [h1] at h; cases h
  | some o1 =>
    rw [h1] at h
    obtain ⟨a, _, _, _, _⟩ := setP_same _ _ _ h
    obtain ⟨c, _, _, _⟩ := tables_method tables o1
    have := (a.trans c).trans (addAllP_last _ _ _ _ h1)
    exact ⟨this, by rw [this]; simpa using hne.symm⟩

example : (construct ⟨["VDI_PPDS"], some "VDI_PPDS", ["COSTALD_COMPRESSED"], none, none, []⟩ [("mine", ⟨some [1, 2], some 1, some 2⟩)] [] ["COSTALD_COMPRESSED"] none).map (fun o => (o.method, o.methodP)) =
    some (some "mine", some "COSTALD_COMPRESSED") := by decide +kernel

/-! ## Forms of polynomial fits -/

/-- `fit_form` (2114-2138). -/
inductive Form | interpolation | poly | expPoly | polyLnTau | expPolyLnTau | other
  deriving DecidableEq

/-- A pair of transformations: of the variable, back, of the property, back. An absent one is `None`. -/
structure Maps where
  x : Option (ℝ → ℝ)
  xinv : Option (ℝ → ℝ)
  y : Option (ℝ → ℝ)
  yinv : Option (ℝ → ℝ)

/-- `interpolation_T` for the logarithm of the distance from the critical point (2127, 2133). -/
noncomputable def lnTau (Tc T : ℝ) : ℝ := Fits.truncLog (1 - T / Tc)

/-- Its inverse (2128, 2134). -/
noncomputable def lnTauInv (Tc x : ℝ) : ℝ := -(exp x - 1) * Tc

/-- The transformations of a form (2111-2138); `cls` are those of the class. `none` is an exception. -/
noncomputable def maps (cls : Maps) (Tc : ℝ) : Form → Option Maps
  | .interpolation => some cls
  | .poly => some ⟨some id, some id, some id, some id⟩
  | .expPoly => some ⟨some id, some id, some Fits.truncLog, some exp⟩
  | .polyLnTau => some ⟨some (lnTau Tc), some (lnTauInv Tc), some id, some id⟩
  | .expPolyLnTau => some ⟨some (lnTau Tc), some (lnTauInv Tc), some Fits.truncLog, some exp⟩
  | .other => none

/-- Whether a form takes logarithms of the property, of the distance to the critical point. -/
def Form.logs : Form → Bool | .expPoly => true | .expPolyLnTau => true | _ => false
def Form.taus : Form → Bool | .polyLnTau => true | .expPolyLnTau => true | _ => false

theorem lnTau_inv (Tc T : ℝ) (hTc : 0 < Tc) (h : T < Tc) : lnTauInv Tc (lnTau Tc T) = T := by
  have h1 : 0 < 1 - T / Tc := by rw [sub_pos, div_lt_one hTc]; exact h
  unfold lnTauInv lnTau Fits.truncLog
  rw [if_pos h1, exp_log h1]
  field_simp
  ring

/-- **C152.** Below the critical temperature, and for a positive property where its logarithm is fitted, the transformations of a named form undo each other. -/
theorem C152_inverse (cls : Maps) (Tc : ℝ) (f : Form) (hf : f ≠ .interpolation) (m : Maps) (hm : maps cls Tc f = some m) :
    ∃ x xinv y yinv, m = ⟨some x, some xinv, some y, some yinv⟩ ∧ (∀ T, (f.taus = true → 0 < Tc ∧ T < Tc) → xinv (x T) = T) ∧
      (∀ v, (f.logs = true → 0 < v) → yinv (y v) = v) := by
  have hl : ∀ v, 0 < v → exp (Fits.truncLog v) = v := fun v hv => by unfold Fits.truncLog; rw [if_pos hv, exp_log hv]
  cases f with
  | interpolation => exact absurd rfl hf
  | other => cases hm
  | poly => cases hm; exact ⟨id, id, id, id, rfl, fun _ _ => rfl, fun _ _ => rfl⟩
  | expPoly => cases hm; exact ⟨id, id, _, _, rfl, fun _ _ => rfl, fun v h => hl v (h rfl)⟩
  | polyLnTau => cases hm; exact ⟨_, _, id, id, rfl, fun T h => lnTau_inv Tc T (h rfl).1 (h rfl).2, fun _ _ => rfl⟩
  | expPolyLnTau => cases hm; exact ⟨_, _, _, _, rfl, fun T h => lnTau_inv Tc T (h rfl).1 (h rfl).2, fun v h => hl v (h rfl)⟩

/-- **C152.** The other way round: every value of the transformed variable is met. -/
theorem C152_onto (Tc x : ℝ) (hTc : 0 < Tc) : lnTauInv Tc x < Tc ∧ lnTau Tc (lnTauInv Tc x) = x := by
  have h1 : 1 - lnTauInv Tc x / Tc = exp x := by unfold lnTauInv; field_simp; ring
  have h2 := exp_pos x
  refine ⟨?_, ?_⟩
  · unfold lnTauInv; nlinarith
  · unfold lnTau Fits.truncLog
    rw [h1, if_pos h2, log_exp]

/-- **C152 fails.** From the critical temperature on all temperatures are one: the transformed variable is the same and its inverse is below the critical temperature. -/
theorem C152_critical_fails (Tc : ℝ) (hTc : 0 < Tc) (T : ℝ) (h : Tc ≤ T) : lnTau Tc T = lnTau Tc Tc ∧ lnTauInv Tc (lnTau Tc T) < T := by
  have h1 : ∀ T, Tc ≤ T → lnTau Tc T = -744.4400719213812 := by
    intro T h
    unfold lnTau Fits.truncLog
    rw [if_neg (by rw [not_lt, sub_nonpos, one_le_div hTc]; exact h)]
  refine ⟨(h1 T h).trans (h1 Tc le_rfl).symm, lt_of_lt_of_le ?_ h⟩
  exact (C152_onto Tc _ hTc).1

example : lnTau 500 600 = lnTau 500 500 := (C152_critical_fails 500 (by norm_num) 600 (by norm_num)).1

/-- The value a fit stands for (the inverse transformations of 2116-2136 around a polynomial `p`). -/
noncomputable def recovered (m : Maps) (p : ℝ → ℝ) (T : ℝ) : Option ℝ := match m.x, m.yinv with
  | some x, some yinv => some (yinv (p (x T)))
  | _, _ => none

/-- The function a fit is made of (`fit_polynomial` with the maps of 2152-2158); `none` is calling `None`. -/
noncomputable def target (m : Maps) (f : ℝ → ℝ) (low high : ℝ) : Option (ℝ → ℝ) := match m.x, m.xinv, m.y with
  | some _, some xinv, some y => some (Fitting.wrapped f y xinv low high)
  | some _, some xinv, none => some (Fitting.wrapped f id xinv low high)
  | _, _, _ => none

/-- **C152.** A polynomial that meets the fitted function stands for the function of the method, at every temperature between the limits,
if the limits are below the critical temperature and the function is positive, where these matter. -/
theorem C152_exact (cls : Maps) (Tc : ℝ) (f : Form) (hf : f ≠ .interpolation) (m : Maps) (hm : maps cls Tc f = some m) (func : ℝ → ℝ) (low high : ℝ)
    (htau : f.taus = true → 0 < Tc ∧ high < Tc) (hpos : f.logs = true → ∀ T, low ≤ T → T ≤ high → 0 < func T) :
    ∃ g, target m func low high = some g ∧ ∀ p T x, m.x = some x → low ≤ T → T ≤ high → p (x T) = g (x T) → recovered m p T = some (func T) := by
  obtain ⟨x, xinv, y, yinv, rfl, hx, hy⟩ := C152_inverse cls Tc f hf m hm
  refine ⟨_, rfl, ?_⟩
  intro p T x' hx' h1 h2 he
  obtain rfl : x = x' := Option.some.inj hx'
  show some (yinv (p (x T))) = _
  rw [he]
  unfold Fitting.wrapped
  simp only [hx T fun h => ⟨(htau h).1, h2.trans_lt (htau h).2⟩]
  rw [if_neg (not_lt.mpr h2), if_neg (not_lt.mpr h1), hy _ fun h => hpos h T h1 h2]

example : ∃ g, target ⟨some (lnTau 500), some (lnTauInv 500), some Fits.truncLog, some exp⟩ (fun T => T + 1) 300 400 = some g ∧
    recovered ⟨some (lnTau 500), some (lnTauInv 500), some Fits.truncLog, some exp⟩ g 350 = some 351 := by
  obtain ⟨g, h1, h2⟩ := C152_exact ⟨none, none, none, none⟩ 500 .expPolyLnTau (by decide) _ rfl (fun T => T + 1) 300 400 (fun _ => ⟨by norm_num, by norm_num⟩) (fun _ T h _ => by linarith)
  refine ⟨g, h1, ?_⟩
  rw [h2 g 350 _ rfl (by norm_num) (by norm_num) rfl]
  norm_num

/-- **C152 fails.** The form named `interpolation` calls the transformation of temperature of the class, which is `None` in the base class and for volumes, heat capacities, conductivities,
surface tensions: an exception. -/
theorem C152_interpolation_fails (y yinv : Option (ℝ → ℝ)) (Tc : ℝ) (func : ℝ → ℝ) (low high : ℝ) :
    (maps ⟨none, none, y, yinv⟩ Tc .interpolation).bind (fun m => target m func low high) = none := rfl

/-- `polynomial_from_method` (2091-2099, 2143-2166): number of coefficients and limits. `auto` is the selection of the number between two bounds; `none` is an exception. -/
def fromMethod (limits : Dict (ℚ × ℚ)) (m : String) (n : Option ℕ) (auto : ℕ → ℕ → Option ℕ) (startN maxN : ℕ) : Option (ℕ × ℚ × ℚ) := match limits.get m with
  | none => none
  | some l => match n with
    | some k => some (k, l)
    | none => (auto startN maxN).map fun k => (k, l)

/-- **C152.** A fit of a method has the limits of the method, and as many coefficients as asked for, else as many as the selection between the bounds gives. A method without limits is an error. -/
theorem C152_from_method (limits : Dict (ℚ × ℚ)) (m : String) (n : Option ℕ) (auto : ℕ → ℕ → Option ℕ) (startN maxN : ℕ) :
    (limits.get m = none → fromMethod limits m n auto startN maxN = none) ∧
    ∀ k a b, fromMethod limits m n auto startN maxN = some (k, a, b) ↔ limits.get m = some (a, b) ∧ (n = some k ∨ n = none ∧ auto startN maxN = some k) := by
  unfold fromMethod
  cases limits.get m with
  | none => simp
  | some l =>
    cases n with
    | none => cases auto startN maxN <;> simp [and_comm]
    | some j => simp [and_comm]

example : fromMethod [("CRC", 250, 400)] "CRC" none (fun a b => some (a + b)) 3 30 = some (33, 250, 400) ∧ fromMethod [("CRC", 250, 400)] "CRC" (some 4) (fun a b => some (a + b)) 3 30 = some (4, 250, 400) := by decide +kernel

/-- Limits of `polynomial_from_data` (2103-2104); `none` is `min` of nothing. -/
def dataLimits (Ts : List ℚ) : Option (ℚ × ℚ) := match Ts.min?, Ts.max? with
  | some a, some b => some (a, b)
  | _, _ => none

/-- **C152.** The limits of a fit to data contain all the data and are among them, in whatever order the data are. -/
theorem C152_data_limits (Ts : List ℚ) (hne : Ts ≠ []) : ∃ a b, dataLimits Ts = some (a, b) ∧ a ∈ Ts ∧ b ∈ Ts ∧ ∀ T ∈ Ts, a ≤ T ∧ T ≤ b := by
  cases h1 : Ts.min? with
  | none => exact absurd (List.min?_eq_none_iff.mp h1) hne
  | some a =>
    cases h2 : Ts.max? with
    | none => exact absurd (List.max?_eq_none_iff.mp h2) hne
    | some b =>
      rw [List.min?_eq_some_iff] at h1
      rw [List.max?_eq_some_iff] at h2
      refine ⟨a, b, ?_, h1.1, h2.1, fun T hT => ⟨h1.2 T hT, h2.2 T hT⟩⟩
      unfold dataLimits
      rw [List.min?_eq_some_iff.mpr h1, List.max?_eq_some_iff.mpr h2]

example : dataLimits [300, 250, 400] = some (250, 400) := by decide +kernel

/-! ## Export of fits -/

/-- What a fit returns: coefficients, limits, and mean, deviation, least and greatest ratio (2026). -/
structure Fit where
  coeffs : List ℚ
  low : ℚ
  high : ℚ
  mean : ℚ
  std : ℚ
  least : ℚ
  greatest : ℚ
  deriving DecidableEq

/-- A record of the export (2029-2031). -/
structure Record where
  Tmin : ℚ
  Tmax : ℚ
  average : ℚ
  std : ℚ
  maxError : ℚ
  method : String
  coeffs : List ℚ
  deriving DecidableEq

/-- Line 2028. -/
def maxError (f : Fit) : ℚ := max |1 - f.least| |1 - f.greatest|

def record (m : String) (f : Fit) : Record := ⟨f.low, f.high, f.mean, f.std, maxError f, m, f.coeffs⟩

/-- Number of coefficients asked for and the greatest allowed (2021-2022). -/
def request (force most : Dict ℕ) (maxN : ℕ) (m : String) : Option ℕ × ℕ := (force.get m, (most.get m).getD maxN)

/-- The fits of a method (2020-2031): `fit CAS method n max_n`; `none` is an exception. -/
def methodDat (fit : String → String → Option ℕ → ℕ → Option Fit) (force most : Dict ℕ) (maxN : ℕ) (m : String) : List String → Dict Record → Option (Dict Record)
  | [], d => some d
  | c :: l, d => match fit c m (request force most maxN m).1 (request force most maxN m).2 with
    | none => none
    | some f => methodDat fit force most maxN m l (d.set c (record m f))

/-- The loop over methods (2019-2038): what is returned, and the documents written. -/
def loop (fit : String → String → Option ℕ → ℕ → Option Fit) (force most : Dict ℕ) (maxN : ℕ) (save : Bool) :
    List (String × List String) → Dict (Dict Record) × List (String × Dict Record) → Option (Dict (Dict Record) × List (String × Dict Record))
  | [], r => some r
  | p :: l, r => match methodDat fit force most maxN p.1 p.2 [] with
    | none => none
    | some d => loop fit force most maxN save l (if save then (r.1.set p.1 d, r.2 ++ [(p.1 ++ "_polyfits.json", d)]) else r)

/-- `_fit_export_polynomials` (2003-2040). -/
def export_ (fit : String → String → Option ℕ → ℕ → Option Fit) (force most : Dict ℕ) (maxN : ℕ) (save : Bool) (sources : Dict (List String)) (method : Option String) :
    Option (Dict (Dict Record) × List (String × Dict Record)) := match method with
  | none => loop fit force most maxN save sources ([], [])
  | some m => match sources.get m with
    | none => none
    | some index => loop fit force most maxN save [(m, index)] ([], [])

/-- **C152.** The greatest error of a record bounds the error of every ratio between the least and the greatest, and is met by one of them. -/
theorem C152_max_error (f : Fit) (h : f.least ≤ f.greatest) : (∀ r, f.least ≤ r → r ≤ f.greatest → |1 - r| ≤ maxError f) ∧
    ∃ r, f.least ≤ r ∧ r ≤ f.greatest ∧ |1 - r| = maxError f := by
  constructor
  · intro r h1 h2
    unfold maxError
    rw [abs_le]
    constructor
    · have := neg_abs_le (1 - f.greatest)
      have := le_max_right |1 - f.least| |1 - f.greatest|
      linarith
    · have := le_abs_self (1 - f.least)
      have := le_max_left |1 - f.least| |1 - f.greatest|
      linarith
  · rcases max_choice |1 - f.least| |1 - f.greatest| with h1 | h1
    · exact ⟨f.least, le_rfl, h, h1.symm⟩
    · exact ⟨f.greatest, h, le_rfl, h1.symm⟩

example : maxError ⟨[], 0, 0, 0, 0, 9 / 10, 21 / 20⟩ = 1 / 10 := by norm_num [maxError]

theorem methodDat_spec (fit : String → String → Option ℕ → ℕ → Option Fit) (force most : Dict ℕ) (maxN : ℕ) (m : String) (l : List String) (d d' : Dict Record)
    (h : methodDat fit force most maxN m l d = some d') (c : String) :
    d'.get c = if c ∈ l then (fit c m (force.get m) ((most.get m).getD maxN)).map (record m) else d.get c := by
  induction l generalizing d with
  | nil => cases h; simp
  | cons a l ih =>
    simp only [methodDat, request] at h
    cases h1 : fit a m (force.get m) ((most.get m).getD maxN) with
    | none => rw [h1] at h; cases h
    | some f =>
      rw [h1] at h
      rw [ih _ h, get_set]
      by_cases h2 : c ∈ l
      · rw [if_pos h2, if_pos (List.mem_cons_of_mem _ h2)]
      · rw [if_neg h2]
        by_cases h3 : c = a
        · subst h3
          rw [if_pos rfl, if_pos (List.mem_cons_self), h1]; rfl
        · rw [if_neg h3, if_neg (by simp [h2, h3])]

theorem loop_saved (fit : String → String → Option ℕ → ℕ → Option Fit) (force most : Dict ℕ) (maxN : ℕ) (l : List (String × List String)) (r r' : Dict (Dict Record) × List (String × Dict Record))
    (hn : (l.map (·.1)).Nodup) (h : loop fit force most maxN true l r = some r') :
    r'.2.map (·.1) = r.2.map (·.1) ++ l.map (fun p => p.1 ++ "_polyfits.json") ∧
    (∀ m, m ∉ l.map (·.1) → r'.1.get m = r.1.get m) ∧ ∀ m index, (m, index) ∈ l → ∃ d, r'.1.get m = some d ∧ (m ++ "_polyfits.json", d) ∈ r'.2 ∧
      ∀ c, d.get c = if c ∈ index then (fit c m (force.get m) ((most.get m).getD maxN)).map (record m) else none := by
  induction l generalizing r with
  | nil => cases h; simp
  | cons p l ih =>
    simp only [loop] at h
    cases h1 : methodDat fit force most maxN p.1 p.2 [] with
    | none => rw [h1] at h; cases h
    | some d =>
      rw [h1] at h
      simp only [if_true] at h
      simp only [List.map_cons, List.nodup_cons] at hn
      obtain ⟨a, b, c⟩ := ih _ hn.2 h
      have keep : ∀ x, x ∈ (r.2 ++ [(p.1 ++ "_polyfits.json", d)]) → x ∈ r'.2 := by
        clear a b c ih h1
        intro x hx
        have : ∀ (l : List (String × List String)) (q : Dict (Dict Record) × List (String × Dict Record)), loop fit force most maxN true l q = some r' → x ∈ q.2 → x ∈ r'.2 := by
          intro l
          induction l with
          | nil => intro q hq hx; cases hq; exact hx
          | cons p l ih =>
            intro q hq hx
            simp only [loop] at hq
            cases h1 : methodDat fit force most maxN p.1 p.2 [] with
            | none => rw [h1] at hq; cases hq
            | some d =>
              rw [h1] at hq
              exact ih _ hq (by simp [hx])
        exact this l _ h hx
      refine ⟨?_, fun m hm => ?_, fun m index hm => ?_⟩
      · rw [a]; simp
      · rw [List.map_cons, List.mem_cons, not_or] at hm
        rw [b m hm.2, get_set, if_neg hm.1]
      · rcases List.mem_cons.mp hm with he | hm
        · obtain ⟨rfl, rfl⟩ : m = p.1 ∧ index = p.2 := by rw [← he]; exact ⟨rfl, rfl⟩
          refine ⟨d, ?_, keep _ (by simp), fun c => ?_⟩
          · rw [b p.1 hn.1, get_set, if_pos rfl]
          · rw [methodDat_spec _ _ _ _ _ _ _ _ h1 c]; rfl
        · exact c m index hm

/-- **C152.** A saved export has one document for each method of the class, in order; what is returned for a method is what its document holds: for every substance of the method the record of
its fit, made with the number of coefficients forced for the method if there is one, and with the limit of the method on that number. -/
theorem C152_saved (fit : String → String → Option ℕ → ℕ → Option Fit) (force most : Dict ℕ) (maxN : ℕ) (sources : Dict (List String)) (hn : sources.keys.Nodup)
    (r : Dict (Dict Record) × List (String × Dict Record)) (h : export_ fit force most maxN true sources none = some r) :
    r.2.map (·.1) = sources.map (fun p => p.1 ++ "_polyfits.json") ∧ (∀ m, m ∉ sources.keys → r.1.get m = none) ∧
    ∀ m index, (m, index) ∈ sources → ∃ d, r.1.get m = some d ∧ (m ++ "_polyfits.json", d) ∈ r.2 ∧
      ∀ c, d.get c = if c ∈ index then (fit c m (force.get m) ((most.get m).getD maxN)).map (fun f =>
        ⟨f.low, f.high, f.mean, f.std, max |1 - f.least| |1 - f.greatest|, m, f.coeffs⟩) else none := by
  obtain ⟨a, b, c⟩ := loop_saved fit force most maxN sources ([], []) r hn h
  exact ⟨by simpa using a, b, c⟩

/-- Fits that report the request made. -/
def echo (c m : String) (n : Option ℕ) (k : ℕ) : Option Fit := some ⟨[c.length, m.length], n.getD 0, k, 1, 0, 1, 1⟩

example : (export_ echo [("CRCSTD", 1)] [("CRC", 4)] 30 true [("CRCSTD", ["7732-18-5"]), ("CRC", ["64-17-5", "71-43-2"])] none).map (fun r => r.1.flatMap fun p => p.2.map fun q => ([p.1, q.1], [q.2.Tmin, q.2.Tmax])) =
    some [(["CRCSTD", "7732-18-5"], [1, 30]), (["CRC", "64-17-5"], [0, 4]), (["CRC", "71-43-2"], [0, 4])] := by decide +kernel

/-- **C152.** One method alone: only its document is written. A method the class does not have is an error. -/
theorem C152_single (fit : String → String → Option ℕ → ℕ → Option Fit) (force most : Dict ℕ) (maxN : ℕ) (save : Bool) (sources : Dict (List String)) (m : String) :
    (sources.get m = none → export_ fit force most maxN save sources (some m) = none) ∧
    (∀ index r, sources.get m = some index → export_ fit force most maxN true sources (some m) = some r → r.2.map (·.1) = [m ++ "_polyfits.json"] ∧
      ∃ d, r.1.get m = some d ∧ ∀ c, d.get c = if c ∈ index then (fit c m (force.get m) ((most.get m).getD maxN)).map (record m) else none) := by
  refine ⟨fun h => by simp only [export_, h], fun index r h1 h2 => ?_⟩
  simp only [export_, h1] at h2
  obtain ⟨a, _, c⟩ := loop_saved fit force most maxN [(m, index)] ([], []) r (by simp) h2
  obtain ⟨d, e, _, g⟩ := c m index (by simp)
  exact ⟨by simpa using a, d, e, g⟩

example : (export_ echo [] [] 30 true [("CRCSTD", ["7732-18-5"]), ("CRC", ["64-17-5"])] (some "CRC")).map (fun r => r.2.map (·.1)) = some ["CRC_polyfits.json"] := by decide +kernel

/-- **C152 fails.** Without saving (the default) nothing is returned: all fits are made and dropped, whatever the class and the method. -/
theorem C152_unsaved_fails (fit : String → String → Option ℕ → ℕ → Option Fit) (force most : Dict ℕ) (maxN : ℕ) (sources : Dict (List String)) (m : Option String)
    (r : Dict (Dict Record) × List (String × Dict Record)) (h : export_ fit force most maxN false sources m = some r) : r = ([], []) := by
  have key : ∀ (l : List (String × List String)) (q r : Dict (Dict Record) × List (String × Dict Record)), loop fit force most maxN false l q = some r → r = q := by
    intro l
    induction l with
    | nil => intro q r h; cases h; rfl
    | cons p l ih =>
      intro q r h
      simp only [loop] at h
      cases h1 : methodDat fit force most maxN p.1 p.2 [] with
      | none => rw [h1] at h; cases h
      | some d => rw [h1] at h; exact ih _ _ h
  cases m with
  | none => exact key _ _ _ h
  | some m =>
    simp only [export_] at h
    cases h1 : sources.get m with
    | none => rw [h1] at h; cases h
    | some index => rw [h1] at h; exact key _ _ _ h

example : export_ echo [] [] 30 false [("CRC", ["64-17-5", "71-43-2"])] none = some ([], []) := rfl

/-! ## Tait equation from COSTALD -/

/-- `B_fun` and `C` of `Tait_parameters_COSTALD` (165-180). -/
noncomputable def taitB (Tc Pc omega T : ℝ) : ℝ :=
  let e := exp (4.79594 + omega * (0.250047 + 1.14188 * omega))
  let tau := 1 - T * (1 / Tc)
  let tau13 := tau ^ ((1 : ℝ) / 3)
  Pc * (-1 + -9.070217 * tau13 + 62.45326 * tau13 * tau13 + -135.1102 * tau + e * tau * tau13)

noncomputable def taitC (omega : ℝ) : ℝ := 0.0861488 + 0.0344483 * omega

/-- **C152.** The Tait function is that of the COSTALD method for compressed liquids, with the reduced temperature and the published powers. -/
theorem C152_tait (Tc Pc omega T : ℝ) (hTc : 0 < Tc) (h : T < Tc) :
    taitC omega = 0.0861488 + 0.0344483 * omega ∧ taitB Tc Pc omega T = Pc * (-1 - 9.070217 * (1 - T / Tc) ^ ((1 : ℝ) / 3) + 62.45326 * (1 - T / Tc) ^ ((2 : ℝ) / 3) - 135.1102 * (1 - T / Tc) +
      exp (4.79594 + 0.250047 * omega + 1.14188 * omega ^ 2) * (1 - T / Tc) ^ ((4 : ℝ) / 3)) := by
  have ht : 0 < 1 - T / Tc := by rw [sub_pos, div_lt_one hTc]; exact h
  have h2 : (1 - T / Tc) ^ ((2 : ℝ) / 3) = (1 - T / Tc) ^ ((1 : ℝ) / 3) * (1 - T / Tc) ^ ((1 : ℝ) / 3) := by rw [← rpow_add ht]; norm_num
  have h4 : (1 - T / Tc) ^ ((4 : ℝ) / 3) = (1 - T / Tc) * (1 - T / Tc) ^ ((1 : ℝ) / 3) := by
    nth_rewrite 2 [← rpow_one (1 - T / Tc)]
    rw [← rpow_add ht]; norm_num
  have he : (4.79594 + omega * (0.250047 + 1.14188 * omega) : ℝ) = 4.79594 + 0.250047 * omega + 1.14188 * omega ^ 2 := by ring
  refine ⟨rfl, ?_⟩
  rw [h2, h4]
  unfold taitB
  dsimp only
  rw [he, mul_one_div]
  ring

example : taitB 500 3e6 0.3 250 = 3e6 * (-1 - 9.070217 * (1 / 2) ^ ((1 : ℝ) / 3) + 62.45326 * (1 / 2) ^ ((2 : ℝ) / 3) - 135.1102 * (1 / 2) +
    exp (4.79594 + 0.250047 * 0.3 + 1.14188 * 0.3 ^ 2) * (1 / 2) ^ ((4 : ℝ) / 3)) := by
  rw [(C152_tait 500 3e6 0.3 250 (by norm_num) (by norm_num)).2]
  norm_num

/-- **C152.** At the critical temperature the function is minus the critical pressure, so that the logarithm of the Tait equation is of nothing at the critical point. -/
theorem C152_tait_critical (Tc Pc omega : ℝ) (hTc : Tc ≠ 0) : taitB Tc Pc omega Tc + Pc = 0 := by
  unfold taitB
  dsimp only
  rw [mul_one_div, div_self hTc, sub_self, zero_rpow (by norm_num)]
  ring

end Verif.Exports
