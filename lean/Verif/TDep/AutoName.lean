import Mathlib.Data.List.Basic
import Mathlib.Tactic.Common

/-!
# C51: automatic names of tabular data

`add_tabular_data` and `add_tabular_data_P` invent a name when none is given.
-/

namespace Verif.AutoName

variable {D : Type}

/-- A Python dictionary with string keys. -/
abbrev Dict (D : Type) := List (List Char × D)

/-- `d[k] = v`: replaces the value of a key in use, else appends. -/
def Dict.set (d : Dict D) (k : List Char) (v : D) : Dict D :=
  if k ∈ d.map (·.1) then d.map fun e => if e.1 = k then (k, v) else e else d ++ [(k, v)]

/-- `d.get(k)`. -/
def Dict.get (d : Dict D) (k : List Char) : Option D := (d.find? fun e => e.1 = k).map (·.2)

/-- `'Tabular data series #' + str(k)` (t_dependent_property.py 3804, tp_dependent_property.py 379). -/
def auto (k : ℕ) : List Char :=
  ['T', 'a', 'b', 'u', 'l', 'a', 'r', ' ', 'd', 'a', 't', 'a', ' ', 's', 'e', 'r', 'i',
   'e', 's', ' ', '#'] ++ Nat.toDigits 10 k

/-- The name and dictionary update of `add_tabular_data` (t_dependent_property.py 3803-3805): the invented
name counts the series stored so far. -/
def addTable (d : Dict D) (name : Option (List Char)) (v : D) : Dict D :=
  d.set (name.getD (auto d.length)) v

/-- The name and dictionary update of `add_tabular_data_P` (tp_dependent_property.py 378-380): the
invented name counts `self.tabular_data`, the temperature series (`nT` of them), not the pressure series. -/
def addTableP (nT : ℕ) (d : Dict D) (name : Option (List Char)) (v : D) : Dict D :=
  d.set (name.getD (auto nT)) v

/-! ## Theorems -/

theorem auto_injective : Function.Injective auto := by
  intro a b h
  have h' := List.append_cancel_left h
  have := congrArg (fun l => Nat.ofDigitChars 10 l 0) h'
  simpa [Nat.ofDigitChars_toDigits] using this

theorem get_set (d : Dict D) (k k' : List Char) (v : D) :
    (d.set k v).get k' = if k' = k then some v else d.get k' := by
  unfold Dict.set
  by_cases hk : k ∈ d.map (·.1)
  · rw [if_pos hk]
    induction d with
    | nil => simp at hk
    | cons e d ih =>
      unfold Dict.get at ih ⊢
      simp only [List.map_cons, List.find?_cons]
      by_cases he : e.1 = k
      · simp only [he, if_true]
        by_cases hkk : k' = k
        · simp [hkk]
        · have h1 : ¬ k = k' := fun h => hkk h.symm
          simp only [h1, hkk, decide_false, if_false]
          by_cases hm : k ∈ d.map (·.1)
          · rw [ih hm, if_neg hkk]
          · have : d.map (fun e => if e.1 = k then (k, v) else e) = d := by
              conv_rhs => rw [← List.map_id d]
              refine List.map_congr_left fun a ha => ?_
              have : a.1 ≠ k := fun h => hm (List.mem_map.2 ⟨a, ha, h⟩)
              simp [this]
            rw [this]
      · have hm : k ∈ d.map (·.1) := by
          simp only [List.map_cons, List.mem_cons] at hk
          rcases hk with h | h
          · exact absurd h.symm he
          · exact h
        simp only [he, if_false]
        by_cases hek : e.1 = k'
        · have : k' ≠ k := by rw [← hek]; exact he
          simp [hek, this]
        · simp only [hek, decide_false]
          exact ih hm
  · rw [if_neg hk]
    unfold Dict.get
    rw [List.find?_append]
    by_cases hkk : k' = k
    · subst hkk
      have : d.find? (fun e => e.1 = k') = none := by
        rw [List.find?_eq_none]
        intro e he
        simpa using fun h => hk (List.mem_map.2 ⟨e, he, h⟩)
      simp [this]
    · rw [if_neg hkk]
      have h1 : ¬ k = k' := fun h => hkk h.symm
      simp [h1]

theorem keys_set (d : Dict D) (k k' : List Char) (v : D) :
    k' ∈ (d.set k v).map (·.1) ↔ k' = k ∨ k' ∈ d.map (·.1) := by
  unfold Dict.set
  by_cases hk : k ∈ d.map (·.1)
  · rw [if_pos hk]
    have : (d.map fun e => if e.1 = k then (k, v) else e).map (·.1) = d.map (·.1) := by
      rw [List.map_map]
      refine List.map_congr_left fun a _ => ?_
      by_cases h : a.1 = k <;> simp [h]
    rw [this]
    constructor
    · exact .inr
    · rintro (rfl | h)
      · exact hk
      · exact h
  · rw [if_neg hk]
    simp only [List.map_append, List.map_cons, List.map_nil, List.mem_append, List.mem_singleton]
    exact or_comm

theorem length_set (d : Dict D) (k : List Char) (v : D) :
    (d.set k v).length = if k ∈ d.map (·.1) then d.length else d.length + 1 := by
  unfold Dict.set
  split <;> simp

/-- The series stored by a history of additions, starting from no series. -/
def run (ops : List (Option (List Char) × D)) : Dict D :=
  ops.foldl (fun d o => addTable d o.1 o.2) []

/-- **C51 (partial).** If no name given by the user has the form of an invented one, a series added
without a name gets a name not in use and no other series changes, after any history. Missing: names of
that form given by the user (`C51_named_series_overwritten`) and the pressure tables
(`C51_pressure_series_overwritten`), where the claim is false. -/
theorem C51_unnamed_is_new_partial (ops : List (Option (List Char) × D))
    (hops : ∀ o ∈ ops, ∀ n, o.1 = some n → ∀ k, n ≠ auto k) (v : D) :
    let d := run ops
    (∃ n, d.get n = none ∧ (addTable d none v).get n = some v) ∧
    ∀ n w, d.get n = some w → (addTable d none v).get n = some w := by
  have inv : ∀ (ops : List (Option (List Char) × D)) (d : Dict D),
      (∀ o ∈ ops, ∀ n, o.1 = some n → ∀ k, n ≠ auto k) →
      (∀ k, auto k ∈ d.map (·.1) → k < d.length) →
      ∀ k, auto k ∈ (ops.foldl (fun d o => addTable d o.1 o.2) d).map (·.1) →
        k < (ops.foldl (fun d o => addTable d o.1 o.2) d).length := by
    intro ops
    induction ops with
    | nil => intro d _ h; exact h
    | cons o os ih =>
      intro d ho h
      refine ih _ (fun o' ho' => ho o' (List.mem_cons_of_mem _ ho')) ?_
      intro k hk
      unfold addTable at hk ⊢
      rw [keys_set] at hk
      rw [length_set]
      cases hn : o.1 with
      | some n =>
        rw [hn] at hk
        rcases hk with hk | hk
        · exact absurd hk.symm (ho o List.mem_cons_self n hn k)
        · have := h k hk; split <;> omega
      | none =>
        rw [hn] at hk
        have hnew : auto d.length ∉ d.map (·.1) := fun hm => absurd (h _ hm) (Nat.lt_irrefl _)
        simp only [Option.getD_none] at hk ⊢
        rw [if_neg hnew]
        rcases hk with hk | hk
        · have := auto_injective hk; omega
        · have := h k hk; omega
  intro d
  have hd : ∀ k, auto k ∈ d.map (·.1) → k < d.length := inv ops [] hops (by simp)
  have hnew : auto d.length ∉ d.map (·.1) := fun hm => absurd (hd _ hm) (Nat.lt_irrefl _)
  have hget : d.get (auto d.length) = none := by
    unfold Dict.get
    rw [Option.map_eq_none_iff, List.find?_eq_none]
    intro e he
    simpa using fun h => hnew (List.mem_map.2 ⟨e, he, h⟩)
  unfold addTable
  simp only [Option.getD_none]
  refine ⟨⟨auto d.length, hget, by rw [get_set, if_pos rfl]⟩, fun n w hn => ?_⟩
  rw [get_set]
  have : n ≠ auto d.length := by rintro rfl; rw [hget] at hn; cases hn
  rw [if_neg this]
  exact hn

/-- A history meeting the hypothesis, with a user-given and two invented names. -/
example : ∀ o ∈ [((none : Option (List Char)), 1), (some ['a'], 2), (none, 3)],
    ∀ n, o.1 = some n → ∀ k, n ≠ auto k := by
  have hd : ∀ k, (auto k).head? = some 'T' := fun k => rfl
  intro o ho n hn k h
  have h2 : n.head? = some 'a' := by
    simp only [List.mem_cons, List.not_mem_nil, or_false] at ho
    rcases ho with ho | ho | ho
    · rw [ho] at hn; simp at hn
    · rw [ho] at hn; simp at hn; rw [← hn]; rfl
    · rw [ho] at hn; simp at hn
  rw [h, hd k] at h2
  simp at h2

/-- **C51, the claim fails** when the user gave a series the name that is invented next. -/
theorem C51_named_series_overwritten (v w : D) :
    (run [(some (auto 1), v), (none, w)]).get (auto 1) = some w ∧
    (run [(some (auto 1), v), (none, w)]).length = 1 := by
  have hl : (Dict.set [] (auto 1) v).length = 1 := by rw [length_set]; simp
  have : run [(some (auto 1), v), (none, w)] = Dict.set (Dict.set [] (auto 1) v) (auto 1) w := by
    show addTable (Dict.set [] (auto 1) v) none w = _
    unfold addTable
    rw [hl]; rfl
  rw [this]
  refine ⟨by rw [get_set, if_pos rfl], ?_⟩
  rw [length_set, if_pos (by rw [keys_set]; exact .inl rfl), length_set]
  simp

/-- **C51, the claim fails** for pressure tables: a second unnamed pressure table replaces the first,
whatever was stored before, because the count is taken from the temperature tables. -/
theorem C51_pressure_series_overwritten (nT : ℕ) (d : Dict D) (v w : D) :
    ∃ n, (addTableP nT d none v).get n = some v ∧
      (addTableP nT (addTableP nT d none v) none w).get n = some w ∧
      (addTableP nT (addTableP nT d none v) none w).length = (addTableP nT d none v).length := by
  refine ⟨auto nT, ?_, ?_, ?_⟩
  · simp [addTableP, get_set]
  · simp [addTableP, get_set]
  · unfold addTableP
    simp only [Option.getD_none]
    rw [length_set (d.set (auto nT) v), if_pos (by rw [keys_set]; exact .inl rfl)]

end Verif.AutoName
