import Mathlib.Tactic
import Mathlib.Data.List.Induction

/-!
# Construction of temperature dependent properties: which method is active (C124)

`thermo/utils/t_dependent_property.py`: the constructor (4877-5064), `_add_extra_correlations` (5066-5077),
`json_correlation_lookup` (266-282), `add_correlation` (3633-3704), `add_tabular_data` (3772-3810), `add_piecewise_method`
(3589-3630), the method setter (2537-2559), `as_string` (1594-1683), `as_poly_fit` (2912-2951) and
`_custom_from_json` (1826-1862).

Method names are strings and their data an arbitrary type.  The keywords of the correlations, with their dictionaries, are lists in
insertion order.  A substance with allotropes is described by the names that are not to be selected (`doNotSet`); its data and
its automatic piecewise method are part of the data from files and of the piecewise methods.  Not modelled: parsing of
the files, numeric limits, validation of required arguments of a correlation.
-/

namespace Verif.Construct

/-! ## Dictionaries -/

abbrev Dict (D : Type) := List (String × D)

/-- `d[k] = v`: in place if the key is there, else at the end. -/
def Dict.set {D : Type} : Dict D → String → D → Dict D
  | [], k, v => [(k, v)]
  | (k', v') :: d, k, v => if k = k' then (k, v) :: d else (k', v') :: Dict.set d k v

/-- `d.update(e)`. -/
def Dict.update {D : Type} (d e : Dict D) : Dict D := e.foldl (fun d p => d.set p.1 p.2) d

/-- `d.get(k)`. -/
def Dict.get {D : Type} (d : Dict D) (k : String) : Option D := (d.find? fun p => p.1 = k).map (·.2)

/-- Keys in order. -/
def Dict.keys {D : Type} (d : Dict D) : List String := d.map (·.1)

theorem get_set {D : Type} (d : Dict D) (k x : String) (v : D) : (d.set k v).get x = if x = k then some v else d.get x := by
  induction d with
  | nil =>
    by_cases h : x = k
    · simp [Dict.set, Dict.get, h]
    · have : ¬ k = x := fun e => h e.symm
      simp [Dict.set, Dict.get, h, this]
  | cons p d ih =>
    obtain ⟨k', v'⟩ := p
    unfold Dict.get at ih ⊢
    by_cases h : k = k'
    · subst h
      by_cases hx : k = x
      · subst hx; simp [Dict.set]
      · have : ¬ x = k := fun e => hx e.symm
        simp [Dict.set, hx, this]
    · by_cases hx : k' = x
      · subst hx
        have : ¬ k' = k := fun e => h e.symm
        simp [Dict.set, h, this]
      · simp only [Dict.set, if_neg h, List.find?_cons]
        simp only [hx, decide_false]
        exact ih

theorem keys_set {D : Type} (d : Dict D) (k : String) (v : D) : (d.set k v).keys = if k ∈ d.keys then d.keys else d.keys ++ [k] := by
  induction d with
  | nil => simp [Dict.set, Dict.keys]
  | cons p d ih =>
    obtain ⟨k', v'⟩ := p
    by_cases h : k = k'
    · subst h; simp [Dict.set, Dict.keys]
    · have e1 : Dict.keys (Dict.set ((k', v') :: d) k v) = k' :: Dict.keys (Dict.set d k v) := by simp [Dict.set, h, Dict.keys]
      have e2 : Dict.keys ((k', v') :: d) = k' :: Dict.keys d := rfl
      rw [e1, e2, ih]
      by_cases hm : k ∈ Dict.keys d
      · rw [if_pos hm, if_pos (List.mem_cons_of_mem _ hm)]
      · rw [if_neg hm, if_neg (fun hc => (List.mem_cons.1 hc).elim h hm)]
        rfl

/-- The last entry of a list of pairs with a given key. -/
def lastOf {D : Type} (e : Dict D) (k : String) : Option D := Dict.get e.reverse k

theorem get_update {D : Type} (d e : Dict D) (k : String) : (d.update e).get k = (lastOf e k).or (d.get k) := by
  unfold Dict.update lastOf
  induction e using List.reverseRecOn with
  | nil => simp [Dict.get]
  | append_singleton e p ih =>
    rw [List.foldl_append, List.reverse_append]
    simp only [List.foldl_cons, List.foldl_nil, List.reverse_cons, List.reverse_nil, List.nil_append, List.singleton_append]
    rw [get_set, ih]
    by_cases h : k = p.1
    · subst h; simp [Dict.get]
    · have h' : ¬ p.1 = k := fun e => h e.symm
      simp [Dict.get, h, h']

theorem keys_update {D : Type} (d e : Dict D) (k : String) : k ∈ (d.update e).keys ↔ k ∈ d.keys ∨ k ∈ e.keys := by
  unfold Dict.update
  induction e generalizing d with
  | nil => simp [Dict.keys]
  | cons p e ih =>
    simp only [List.foldl_cons]
    rw [ih, keys_set]
    have he : Dict.keys (p :: e) = p.1 :: Dict.keys e := rfl
    rw [he, List.mem_cons]
    by_cases h : p.1 ∈ d.keys
    · rw [if_pos h]
      constructor
      · tauto
      · rintro (h1 | h1 | h1)
        · exact Or.inl h1
        · subst h1; exact Or.inl h
        · exact Or.inr h1
    · rw [if_neg h, List.mem_append, List.mem_singleton]
      tauto

theorem keys_update_eq {D : Type} (d e : Dict D) (h : ∀ k ∈ e.keys, k ∈ d.keys) : (d.update e).keys = d.keys := by
  unfold Dict.update
  induction e generalizing d with
  | nil => rfl
  | cons p e ih =>
    simp only [List.foldl_cons]
    have h1 : p.1 ∈ d.keys := h p.1 (by simp [Dict.keys])
    have hk : (d.set p.1 p.2).keys = d.keys := by rw [keys_set, if_pos h1]
    rw [ih, hk]
    intro k hk'
    rw [hk]
    exact h k (by simp only [Dict.keys, List.map_cons, List.mem_cons] at hk' ⊢; exact Or.inr hk')

/-! ## Data files -/

/-- One of the data files merged into the dictionary found so far. -/
def mergeOne {D : Type} (m : Dict D) : Option (Dict D) → Dict D
  | some e => m.update e
  | none => m

/-- `json_correlation_lookup` (266-282) for one keyword: the entries of the data files for a substance and class, `none` if a file has none. The first dictionary found is the one of the file itself, and it is updated
with the later ones. Returns what is found and the files afterwards. -/
def lookup {D : Type} : List (Option (Dict D)) → Option (Dict D) × List (Option (Dict D))
  | [] => (none, [])
  | none :: rest => ((lookup rest).1, none :: (lookup rest).2)
  | some d :: rest => (some (rest.foldl mergeOne d), some (rest.foldl mergeOne d) :: rest)

theorem get_merge {D : Type} (rest : List (Option (Dict D))) (d : Dict D) (k : String) : (rest.foldl mergeOne d).get k = (lastOf ((rest.map (·.getD [])).flatten) k).or (d.get k) := by
  induction rest using List.reverseRecOn with
  | nil => simp [lastOf, Dict.get]
  | append_singleton l o ih =>
    rw [List.foldl_append]
    simp only [List.foldl_cons, List.foldl_nil]
    cases o with
    | none => simp only [mergeOne]; rw [ih]; simp
    | some e =>
      simp only [mergeOne]
      rw [get_update, ih]
      simp only [List.map_append, List.map_cons, List.map_nil, List.flatten_append, Option.getD_some, List.flatten_cons, List.flatten_nil, List.append_nil]
      unfold lastOf Dict.get
      rw [List.reverse_append, List.find?_append]
      cases (e.reverse.find? fun p => decide (p.1 = k)) <;> simp

theorem keys_merge {D : Type} (rest : List (Option (Dict D))) (d : Dict D) (h : ∀ o ∈ rest, ∀ k ∈ (o.getD []).keys, k ∈ d.keys) : (rest.foldl mergeOne d).keys = d.keys := by
  induction rest generalizing d with
  | nil => rfl
  | cons o rest ih =>
    simp only [List.foldl_cons]
    have hk : (mergeOne d o).keys = d.keys := by
      cases o with
      | none => rfl
      | some e => exact keys_update_eq d e (h (some e) (by simp))
    rw [ih, hk]
    intro o' ho' k hk'
    rw [hk]
    exact h o' (by simp [ho']) k hk'

theorem mem_merge {D : Type} (rest : List (Option (Dict D))) (d : Dict D) (k : String) (h : k ∈ d.keys ∨ ∃ o ∈ rest, k ∈ (o.getD []).keys) : k ∈ (rest.foldl mergeOne d).keys := by
  induction rest generalizing d with
  | nil => rcases h with h | ⟨o, ho, _⟩; exacts [h, absurd ho (by simp)]
  | cons o rest ih =>
    simp only [List.foldl_cons]
    apply ih
    rcases h with h | ⟨o', ho', hk⟩
    · left
      cases o with
      | none => exact h
      | some e => exact (keys_update d e k).2 (Or.inl h)
    · rcases List.mem_cons.1 ho' with rfl | ho'
      · left
        cases o' with
        | none => simp [Dict.keys] at hk
        | some e => exact (keys_update d e k).2 (Or.inr hk)
      · exact Or.inr ⟨o', ho', hk⟩

theorem lastOf_nodup {D : Type} (d : Dict D) (k : String) (hn : d.keys.Nodup) : lastOf d k = d.get k := by
  unfold lastOf
  induction d with
  | nil => rfl
  | cons p d ih =>
    have hn' := List.nodup_cons.1 (by simpa [Dict.keys] using hn : (p.1 :: d.map (·.1)).Nodup)
    have ih' := ih hn'.2
    unfold Dict.get at ih' ⊢
    rw [List.reverse_cons, List.find?_append]
    by_cases h : p.1 = k
    · have : d.reverse.find? (fun p => decide (p.1 = k)) = none := by
        rw [List.find?_eq_none]
        intro q hq hqk
        apply hn'.1
        rw [h, ← (of_decide_eq_true hqk)]
        exact List.mem_map_of_mem (List.mem_reverse.1 hq)
      rw [this]
      simp [h]
    · simp only [List.find?_cons, h, decide_false, List.find?_nil, Option.or_none]
      exact ih'

/-- The look-up writes into the first file that has the keyword; a second look-up nevertheless finds the same data under every name, in the same order. Later files take precedence. -/
theorem C124_lookup {D : Type} (dbs : List (Option (Dict D))) :
    ((lookup (lookup dbs).2).1.map Dict.keys = (lookup dbs).1.map Dict.keys) ∧
    (∀ k, (lookup (lookup dbs).2).1.bind (Dict.get · k) = (lookup dbs).1.bind (Dict.get · k)) ∧
    ((∀ o ∈ dbs, (o.getD []).keys.Nodup) → ∀ k, (lookup dbs).1.bind (Dict.get · k) = dbs.reverse.findSome? fun o => (o.getD []).get k) := by
  refine ⟨?_, fun k => ?_, fun hd k => ?_⟩
  · induction dbs with
    | nil => rfl
    | cons o rest ih =>
      cases o with
      | none => exact ih
      | some d =>
        simp only [lookup, Option.map_some, Option.some.injEq]
        exact keys_merge _ _ fun o ho k hk => mem_merge rest d k (Or.inr ⟨o, ho, hk⟩)
  · induction dbs with
    | nil => rfl
    | cons o rest ih =>
      cases o with
      | none => exact ih
      | some d =>
        simp only [lookup, Option.bind_some]
        rw [get_merge, get_merge]
        cases lastOf ((rest.map (·.getD [])).flatten) k <;> simp
  · have flat : ∀ l : List (Option (Dict D)), (∀ o ∈ l, (o.getD []).keys.Nodup) → lastOf ((l.map (·.getD [])).flatten) k = l.reverse.findSome? fun o => (o.getD []).get k := by
      intro l
      induction l using List.reverseRecOn with
      | nil => intro _; simp [lastOf, Dict.get]
      | append_singleton l o ih =>
        intro hl
        rw [List.reverse_append]
        simp only [List.reverse_cons, List.reverse_nil, List.nil_append, List.singleton_append, List.map_cons, List.findSome?_cons, List.map_append, List.map_nil,
          List.flatten_append, List.flatten_cons, List.flatten_nil, List.append_nil]
        have e : lastOf ((l.map (·.getD [])).flatten ++ o.getD []) k = (lastOf (o.getD []) k).or (lastOf ((l.map (·.getD [])).flatten) k) := by
          unfold lastOf Dict.get
          rw [List.reverse_append, List.find?_append]
          cases ((o.getD []).reverse.find? fun p => decide (p.1 = k)) <;> simp
        rw [e, ih (fun o ho => hl o (by simp [ho])), lastOf_nodup _ k (hl o (by simp))]
        cases (o.getD []).get k <;> simp
    induction dbs with
    | nil => rfl
    | cons o rest ih =>
      rw [List.reverse_cons, List.findSome?_append]
      have ih' := ih (fun o ho => hd o (by simp [ho]))
      cases o with
      | none =>
        simp only [lookup]
        rw [ih']
        simp [Dict.get]
      | some d =>
        simp only [lookup, Option.bind_some]
        rw [get_merge, flat rest (fun o ho => hd o (by simp [ho]))]
        simp

example : (lookup [none, some [("Fit 2023", 1), ("x", 2)], some [("Fit 2023", 3), ("y", 4)]]).1 = some [("Fit 2023", 3), ("x", 2), ("y", 4)] ∧
    (∀ o ∈ [none, some [("Fit 2023", 1), ("x", 2)], some [("Fit 2023", 3), ("y", 4)]], (Dict.keys (o.getD [])).Nodup) := by decide +kernel

/-! ## Construction -/

/-- The twelve fits in the order in which the constructor handles them (5003-5052). -/
def fitOrder : List String := ["POLY_FIT", "EXP_POLY_FIT", "POLY_FIT_LN_TAU", "EXP_POLY_FIT_LN_TAU", "STABLEPOLY_FIT", "EXP_STABLEPOLY_FIT", "STABLEPOLY_FIT_LN_TAU", "EXP_STABLEPOLY_FIT_LN_TAU",
  "CHEB_FIT", "EXP_CHEB_FIT", "CHEB_FIT_LN_TAU", "EXP_CHEB_FIT_LN_TAU"]

/-- Arguments of the constructor and data of the class. `method` is `none` if the keyword is not given. A fit comes with whether its limits are numbers. -/
structure Args (D : Type) where
  loaded : List String := []
  user : Dict (Dict D) := []
  json : Dict (Dict D) := []
  tables : List String := []
  piecewise : List (String × List String) := []
  method : Option (Option String) := none
  fits : Dict Bool := []
  extras : List String := []
  internal : List String := []
  ranked : List String := []
  doNotSet : List String := []

/-- The object. `stored` are the fits that have coefficients. -/
structure Obj (D : Type) where
  all : List String
  method : Option String
  corr : Dict D
  stored : List String

/-- `kwargs[key].update(json_based_data)` or `kwargs[key] = json_based_data` (4925-4929). -/
def mergeKw {D : Type} (user json : Dict (Dict D)) : Dict (Dict D) := json.foldl (fun kw p => match kw.get p.1 with
  | some d => kw.set p.1 (d.update p.2)
  | none => kw.set p.1 p.2) user

/-- `add_correlation` (3678-3704) for a well formed correlation: `none` is the `ValueError` for a name in use. -/
def addCorr {D : Type} (o : Obj D) (n : String) (d : D) : Option (Obj D) :=
  if n ∈ o.all then none else some { o with all := o.all ++ [n], method := some n, corr := o.corr ++ [(n, d)] }

/-- The loop over the correlations (4971-4978). -/
def addCorrs {D : Type} : Dict D → Obj D → Option (Obj D)
  | [], o => some o
  | (n, d) :: l, o => (addCorr o n d).bind (addCorrs l)

/-- `add_tabular_data` (3805-3810). -/
def addTable {D : Type} (o : Obj D) (n : String) : Obj D := { o with all := o.all ++ [n], method := some n }

/-- `add_piecewise_method` (3611-3630). -/
def addPiece {D : Type} (o : Obj D) (n : String) (subs : List String) : Option (Obj D) :=
  if subs.all (· ∈ o.all) ∧ n ∉ o.all then some { o with all := o.all ++ [n], method := some n } else none

/-- The loop over the piecewise methods (4986-4993). -/
def addPieces {D : Type} : List (String × List String) → Obj D → Option (Obj D)
  | [], o => some o
  | (n, subs) :: l, o => (addPiece o n subs).bind (addPieces l)

/-- One fit (5003-5052): every setter but that of the plain polynomial raises if a limit is missing; that one does nothing (2887-2888). -/
def addFit {D : Type} (o : Obj D) (n : String) (ok : Bool) : Option (Obj D) :=
  if ok then some { o with all := o.all ++ [n], method := some n, stored := o.stored ++ [n] }
  else if n = "POLY_FIT" then some { o with all := o.all ++ [n], method := some n } else none

/-- The fits that are given, in the order of the constructor. -/
def addFits {D : Type} (fits : Dict Bool) : List String → Obj D → Option (Obj D)
  | [], o => some o
  | n :: l, o => match fits.get n with
    | some ok => (addFit o n ok).bind (addFits fits l)
    | none => addFits fits l o

/-- The ranking with the methods of `_add_extra_correlations` in front (5072-5077). -/
def ranking (extras ranked : List String) : List String := extras.foldl (fun r n => if n ∈ r then r else n :: r) ranked

/-- Whether the method so far is passed over for a ranked one (5058). -/
def again {D : Type} (a : Args D) (m : Option String) : Bool := match m with
  | none => true
  | some m => m ∈ a.doNotSet || (m ∈ a.internal && a.method.isNone)

/-- The method to be set (5058-5063). -/
def chosen {D : Type} (a : Args D) (o : Obj D) : Option String :=
  if again a o.method then ((ranking a.extras a.ranked).find? (· ∈ o.all ++ a.extras)).or o.method else o.method

/-- The choice among the ranked methods and the method setter (5058-5064): `none` is the `ValueError` of the setter. -/
def finish {D : Type} (a : Args D) (o : Obj D) : Option (Obj D) := match chosen a o with
  | none => some { o with all := o.all ++ a.extras, method := none }
  | some n => if n ∈ o.all ++ a.extras then some { o with all := o.all ++ a.extras, method := some n } else none

/-- The constructor (4877-5064). -/
def construct {D : Type} (a : Args D) : Option (Obj D) :=
  (addCorrs ((mergeKw a.user a.json).reverse.flatMap (·.2)) ⟨a.loaded, none, [], []⟩).bind fun o =>
  (addPieces a.piecewise (a.tables.foldl addTable o)).bind fun o =>
  let o := match a.method with
    | some m => { o with method := m }
    | none => o
  (addFits a.fits fitOrder o).bind (finish a)

theorem finish_method {D : Type} (a : Args D) (o o' : Obj D) (h : finish a o = some o') (m : String) (hm : o.method = some m) (h1 : m ∉ a.doNotSet) (h2 : m ∈ a.internal → a.method ≠ none) : o'.method = some m := by
  have hb : again a o.method = false := by
    rw [hm]
    simp only [again, h1, decide_false, Bool.false_or]
    by_cases hi : m ∈ a.internal
    · have := h2 hi
      cases hh : a.method with
      | none => exact absurd hh this
      | some v => simp
    · simp [hi]
  have hc : chosen a o = some m := by
    unfold chosen
    rw [hb, hm]
    simp
  unfold finish at h
  rw [hc] at h
  simp only at h
  split_ifs at h
  simp only [Option.some.injEq] at h
  rw [← h]

/-- The active method of a new object is one of its methods; there is none only if no ranked method is available. -/
theorem C124_available {D : Type} (a : Args D) (o : Obj D) (h : construct a = some o) : (∀ m, o.method = some m → m ∈ o.all) ∧
    (o.method = none → ∀ m ∈ ranking a.extras a.ranked, m ∉ o.all) := by
  unfold construct at h
  simp only [Option.bind_eq_some_iff] at h
  obtain ⟨o1, -, o2, -, o3, -, h⟩ := h
  unfold finish at h
  cases hm : chosen a o3 with
  | none =>
    rw [hm] at h
    simp only [Option.some.injEq] at h
    subst h
    refine ⟨fun m hm => by simp at hm, fun _ m hr => ?_⟩
    unfold chosen at hm
    split_ifs at hm with hc
    · have h1 : (List.find? (fun x => decide (x ∈ o3.all ++ a.extras)) (ranking a.extras a.ranked)) = none := by
        cases hf : (List.find? (fun x => decide (x ∈ o3.all ++ a.extras)) (ranking a.extras a.ranked)) with
        | none => rfl
        | some v => rw [hf] at hm; simp at hm
      have := List.find?_eq_none.1 h1 m hr
      simpa using this
    · rw [hm] at hc
      exact absurd rfl hc
  | some n =>
    rw [hm] at h
    simp only at h
    split_ifs at h with hc
    simp only [Option.some.injEq] at h
    subst h
    refine ⟨fun m hm => ?_, fun hn => by simp at hn⟩
    simp only [Option.some.injEq] at hm
    subst hm
    exact hc

example : (construct ({ loaded := ["A", "B"], ranked := ["B", "A"] } : Args ℕ)).map (·.method) = some (some "B") := by decide +kernel

theorem addFits_nil {D : Type} (l : List String) (o : Obj D) : addFits [] l o = some o := by
  induction l with
  | nil => rfl
  | cons n l ih => simpa [addFits, Dict.get] using ih

/-- A method asked for by keyword is the active one if no fit is given and it is not one of the methods for a single allotrope. -/
theorem C124_explicit_partial {D : Type} (a : Args D) (o : Obj D) (h : construct a = some o) (m : String) (hm : a.method = some (some m)) (hf : a.fits = []) (hd : m ∉ a.doNotSet) : o.method = some m := by
  unfold construct at h
  simp only [Option.bind_eq_some_iff, hm, hf, addFits_nil] at h
  obtain ⟨o1, -, o2, -, o3, h3, h⟩ := h
  simp only [Option.some.injEq] at h3
  refine finish_method a o3 o h m ?_ hd (fun _ => by rw [hm]; exact Option.some_ne_none _)
  rw [← h3]

example : (construct ({ loaded := ["A", "B"], ranked := ["B", "A"], method := some (some "A") } : Args ℕ)).map (·.method) = some (some "A") := by decide +kernel

/-- Any fit wins over the method asked for; and a method for a single allotrope that is asked for is replaced by a ranked one. -/
theorem C124_explicit_fails :
    (construct ({ loaded := ["WAGNER_MCGARRY"], ranked := ["WAGNER_MCGARRY"], method := some (some "WAGNER_MCGARRY"), fits := [("EXP_POLY_FIT", true)] } : Args ℕ)).map (·.method) = some (some "EXP_POLY_FIT") ∧
    (construct ({ loaded := ["CRCSTD"], ranked := ["CRCSTD"], json := [("DIPPR100_parameters", [("Fit 2023 alpha titanium", 1)])], doNotSet := ["Fit 2023 alpha titanium"], method := some (some "Fit 2023 alpha titanium") } : Args ℕ)).map (·.method) = some (some "CRCSTD") := by decide +kernel

theorem addFits_last {D : Type} (fits : Dict Bool) (l : List String) (n : String) (o o' : Obj D) (hn : fits.get n ≠ none) (h : addFits fits (l ++ [n]) o = some o') : o'.method = some n := by
  induction l generalizing o with
  | nil =>
    simp only [List.nil_append, addFits] at h
    cases hf : fits.get n with
    | none => exact absurd hf hn
    | some ok =>
      rw [hf] at h
      simp only [Option.bind_eq_some_iff] at h
      obtain ⟨o1, h1, h2⟩ := h
      simp only [Option.some.injEq] at h2
      subst h2
      unfold addFit at h1
      split_ifs at h1 <;> simp only [Option.some.injEq] at h1 <;> rw [← h1]
  | cons x l ih =>
    simp only [List.cons_append, addFits] at h
    cases hf : fits.get x with
    | none => rw [hf] at h; exact ih o h
    | some ok =>
      rw [hf] at h
      simp only [Option.bind_eq_some_iff] at h
      obtain ⟨o1, -, h2⟩ := h
      exact ih o1 h2

theorem addFits_skip {D : Type} (fits : Dict Bool) (l r : List String) (o : Obj D) (hr : ∀ n ∈ r, fits.get n = none) : addFits fits (l ++ r) o = addFits fits l o := by
  induction l generalizing o with
  | nil =>
    simp only [List.nil_append, addFits]
    induction r with
    | nil => rfl
    | cons x r ih =>
      simp only [addFits, hr x (by simp)]
      exact ih (fun n hn => hr n (by simp [hn]))
  | cons x l ih =>
    simp only [List.cons_append, addFits]
    cases fits.get x with
    | none => exact ih o
    | some ok =>
      have : addFits fits (l ++ r) = addFits (D := D) fits l := funext ih
      simp only [this]

/-- With fits, the active method is the last one given in the order of the constructor. -/
theorem C124_fit {D : Type} (a : Args D) (o : Obj D) (h : construct a = some o) (l r : List String) (n : String) (hs : fitOrder = l ++ n :: r) (hn : a.fits.get n ≠ none) (hr : ∀ x ∈ r, a.fits.get x = none)
    (hd : n ∉ a.doNotSet) (hi : n ∉ a.internal) : o.method = some n := by
  unfold construct at h
  simp only [Option.bind_eq_some_iff] at h
  obtain ⟨o1, -, o2, -, o3, h3, h⟩ := h
  rw [hs, show l ++ n :: r = (l ++ [n]) ++ r by simp, addFits_skip _ _ _ _ hr] at h3
  exact finish_method a o3 o h n (addFits_last _ _ _ _ _ hn h3) hd (fun hc => absurd hc hi)

example : fitOrder = ["POLY_FIT", "EXP_POLY_FIT", "POLY_FIT_LN_TAU", "EXP_POLY_FIT_LN_TAU", "STABLEPOLY_FIT"] ++ "EXP_STABLEPOLY_FIT" :: ["STABLEPOLY_FIT_LN_TAU", "EXP_STABLEPOLY_FIT_LN_TAU", "CHEB_FIT", "EXP_CHEB_FIT", "CHEB_FIT_LN_TAU",
    "EXP_CHEB_FIT_LN_TAU"] ∧ (construct ({ fits := [("EXP_STABLEPOLY_FIT", true), ("POLY_FIT", true)] } : Args ℕ)).map (·.method) = some (some "EXP_STABLEPOLY_FIT") := by decide +kernel

/-- A polynomial fit without limits is accepted and becomes the active method although no coefficients are stored; every other fit without limits is refused. -/
theorem C124_empty_fit_fails : (construct ({ fits := [("POLY_FIT", false)] } : Args ℕ)).map (fun o => (o.method, o.all, o.stored)) = some (some "POLY_FIT", ["POLY_FIT"], []) ∧
    ∀ n ∈ fitOrder, n ≠ "POLY_FIT" → (construct ({ fits := [(n, false)] } : Args ℕ)).isNone = true := by
  constructor
  · decide +kernel
  · have : ∀ n ∈ fitOrder, (n = "POLY_FIT" ∨ (construct ({ fits := [(n, false)] } : Args ℕ)).isNone = true) := by decide +kernel
    intro n hn hne
    exact (this n hn).resolve_left hne

/-! ## Correlations of the user -/

theorem addCorrs_append {D : Type} (l r : Dict D) (o : Obj D) : addCorrs (l ++ r) o = (addCorrs l o).bind (addCorrs r) := by
  induction l generalizing o with
  | nil => rfl
  | cons p l ih =>
    obtain ⟨n, d⟩ := p
    simp only [List.cons_append, addCorrs]
    cases addCorr o n d with
    | none => rfl
    | some o1 => exact ih o1

theorem addCorrs_spec {D : Type} (l : Dict D) (o o' : Obj D) (h : addCorrs l o = some o') : o'.all = o.all ++ l.keys ∧ o'.corr = o.corr ++ l ∧ (∀ p, l.getLast? = some p → o'.method = some p.1) ∧ (o.all.Nodup → o'.all.Nodup) := by
  induction l generalizing o with
  | nil =>
    simp only [addCorrs, Option.some.injEq] at h
    subst h
    simp [Dict.keys]
  | cons p l ih =>
    obtain ⟨n, d⟩ := p
    simp only [addCorrs, Option.bind_eq_some_iff] at h
    obtain ⟨o1, h1, h2⟩ := h
    unfold addCorr at h1
    split_ifs at h1 with hc
    simp only [Option.some.injEq] at h1
    obtain ⟨a1, a2, a3, a4⟩ := ih o1 h2
    subst h1
    refine ⟨by rw [a1]; simp [Dict.keys], by rw [a2]; simp, fun p hp => ?_, fun hnd => a4 ?_⟩
    · cases l with
      | nil =>
        simp only [addCorrs, Option.some.injEq] at h2
        simp only [List.getLast?_singleton, Option.some.injEq] at hp
        subst hp h2
        rfl
      | cons q l =>
        rw [List.getLast?_cons_cons] at hp
        exact a3 p hp
    · rw [List.nodup_append]
      refine ⟨hnd, by simp, fun x hx y hy => ?_⟩
      rw [List.mem_singleton] at hy
      subst hy
      exact fun e => hc (e ▸ hx)

/-- Without data from files, tables, piecewise methods, fits and a method asked for, the last correlation of the first keyword is the active method, and all correlations hold the data given. -/
theorem C124_user_partial {D : Type} (a : Args D) (o : Obj D) (h : construct a = some o) (hj : a.json = []) (ht : a.tables = []) (hp : a.piecewise = []) (hm : a.method = none) (hf : a.fits = [])
    (k : String) (d : Dict D) (n : String) (v : D) (rest : Dict (Dict D)) (hu : a.user = (k, d ++ [(n, v)]) :: rest) (h1 : n ∉ a.doNotSet) (h2 : n ∉ a.internal) :
    o.method = some n ∧ ∀ p ∈ a.user, ∀ q ∈ p.2, q.1 ∈ o.all ∧ q ∈ o.corr := by
  unfold construct at h
  simp only [Option.bind_eq_some_iff, hj, ht, hp, hm, hf, addFits_nil, mergeKw, List.foldl_nil, addPieces, Option.some.injEq] at h
  obtain ⟨o1, a1, o2, rfl, o3, rfl, h⟩ := h
  obtain ⟨b1, b2, b3, b4⟩ := addCorrs_spec _ _ _ a1
  have hfin : o.corr = o1.corr ∧ ∀ x ∈ o1.all, x ∈ o.all := by
    unfold finish at h
    cases hc : chosen a o1 with
    | none =>
      rw [hc] at h
      simp only [Option.some.injEq] at h
      subst h
      exact ⟨rfl, fun x hx => List.mem_append_left _ hx⟩
    | some m =>
      rw [hc] at h
      simp only at h
      split_ifs at h
      simp only [Option.some.injEq] at h
      subst h
      exact ⟨rfl, fun x hx => List.mem_append_left _ hx⟩
  refine ⟨finish_method a o1 o h n (b3 (n, v) ?_) h1 (fun hc => absurd hc h2), fun p hp q hq => ?_⟩
  · rw [hu]
    simp
  · have hmem : q ∈ a.user.reverse.flatMap (·.2) := List.mem_flatMap.2 ⟨p, List.mem_reverse.2 hp, hq⟩
    refine ⟨hfin.2 _ ?_, ?_⟩
    · rw [b1]
      exact List.mem_append_right _ (List.mem_map_of_mem hmem)
    · rw [hfin.1, b2]
      exact List.mem_append_right _ hmem

example : (construct ({ user := [("DIPPR100_parameters", [("x", 1), ("y", 2)]), ("DIPPR101_parameters", [("z", 3)])] } : Args ℕ)).map (fun o => (o.method, o.corr)) =
    some (some "y", [("z", 3), ("x", 1), ("y", 2)]) := by decide +kernel

/-- Data from files displace a correlation given by the user under the same keyword: the one of the file becomes active; if that is one of the internal names, a ranked method does. If the names agree the data given by the user are lost, and
under another keyword the construction fails. -/
theorem C124_displaced_fails :
    (construct ({ loaded := ["MIQUEU"], ranked := ["MIQUEU"], user := [("DIPPR100_parameters", [("mine", 1)])], json := [("DIPPR100_parameters", [("Fit 2023", 2)])] } : Args ℕ)).map (·.method) = some (some "Fit 2023") ∧
    (construct ({ loaded := ["COOLPROP"], ranked := ["COOLPROP"], internal := ["HEOS_FIT"], user := [("stable_polynomial_parameters", [("mine", 1)])], json := [("stable_polynomial_parameters", [("HEOS_FIT", 2)])] } : Args ℕ)).map
      (·.method) = some (some "COOLPROP") ∧
    (construct ({ user := [("DIPPR100_parameters", [("Fit 2023", 1)])], json := [("DIPPR100_parameters", [("Fit 2023", 2)])] } : Args ℕ)).map (·.corr) = some [("Fit 2023", 2)] ∧
    (construct ({ user := [("DIPPR101_parameters", [("Fit 2023", 1)])], json := [("DIPPR100_parameters", [("Fit 2023", 2)])] } : Args ℕ)).isNone = true := by decide +kernel

/-- Under another keyword than those of the files the correlation of the user is the active one. -/
theorem C124_kept {D : Type} (a : Args D) (o : Obj D) (h : construct a = some o) (ht : a.tables = []) (hp : a.piecewise = []) (hm : a.method = none) (hf : a.fits = []) (k : String) (d : Dict D) (n : String) (v : D)
    (hu : a.user = [(k, d ++ [(n, v)])]) (hk : k ∉ a.json.keys) (h1 : n ∉ a.doNotSet) (h2 : n ∉ a.internal) : o.method = some n := by
  unfold construct at h
  simp only [Option.bind_eq_some_iff, ht, hp, hm, hf, addFits_nil, List.foldl_nil, addPieces, Option.some.injEq] at h
  obtain ⟨o1, a1, o2, rfl, o3, rfl, h⟩ := h
  obtain ⟨b1, b2, b3, b4⟩ := addCorrs_spec _ _ _ a1
  refine finish_method a o1 o h n (b3 (n, v) ?_) h1 (fun hc => absurd hc h2)
  have key : ∀ (json kw : Dict (Dict D)), k ∉ json.keys → kw.head? = some (k, d ++ [(n, v)]) → (mergeKw kw json).head? = some (k, d ++ [(n, v)]) := by
    intro json
    induction json with
    | nil => intro kw _ hh; exact hh
    | cons p json ih =>
      intro kw hk hh
      obtain ⟨pk, pd⟩ := p
      have hne : pk ≠ k := by
        intro e
        apply hk
        simp [Dict.keys, e]
      have hk' : k ∉ Dict.keys json := by
        intro hc
        apply hk
        simp only [Dict.keys, List.map_cons, List.mem_cons] at hc ⊢
        exact Or.inr hc
      have hset : ∀ x, (Dict.set kw pk x).head? = some (k, d ++ [(n, v)]) := by
        intro x
        cases kw with
        | nil => simp at hh
        | cons q kw =>
          obtain ⟨qk, qd⟩ := q
          simp only [List.head?_cons, Option.some.injEq, Prod.mk.injEq] at hh
          obtain ⟨rfl, rfl⟩ := hh
          simp [Dict.set, hne]
      unfold mergeKw at ih ⊢
      simp only [List.foldl_cons]
      apply ih _ hk'
      cases kw.get pk <;> exact hset _
  have hh := key a.json a.user hk (by rw [hu]; rfl)
  cases hmk : mergeKw a.user a.json with
  | nil => rw [hmk] at hh; simp at hh
  | cons q l =>
    rw [hmk] at hh
    simp only [List.head?_cons, Option.some.injEq] at hh
    subst hh
    simp

example : (construct ({ loaded := ["MIQUEU"], ranked := ["MIQUEU"], user := [("DIPPR101_parameters", [("mine", 1)])], json := [("DIPPR100_parameters", [("Fit 2023", 2)])] } : Args ℕ)).map (·.method) = some (some "mine") := by decide +kernel

/-! ## The dictionaries of the caller -/

/-- The dictionaries of the caller after the construction: those they passed have been updated in place (4927, 4963). -/
def userAfter {D : Type} (a : Args D) : Dict (Dict D) := a.user.map fun p => (p.1, ((mergeKw a.user a.json).get p.1).getD p.2)

/-- The construction changes the dictionary of the caller: used for a second substance without data of its own under that keyword, it brings in the correlation of the first substance, and makes it active. -/
theorem C124_shared_dictionary_fails :
    userAfter ({ user := [("DIPPR100_parameters", [("mine", 1)])], json := [("DIPPR100_parameters", [("Fit 2023", 2)])] } : Args ℕ) = [("DIPPR100_parameters", [("mine", 1), ("Fit 2023", 2)])] ∧
    (construct ({ user := userAfter { user := [("DIPPR100_parameters", [("mine", 1)])], json := [("DIPPR100_parameters", [("Fit 2023", 2)])] } } : Args ℕ)).map (fun o => (o.method, o.corr)) =
      some (some "Fit 2023", [("mine", 1), ("Fit 2023", 2)]) ∧
    (construct ({ user := [("DIPPR100_parameters", [("mine", 1)])] } : Args ℕ)).map (fun o => (o.method, o.corr)) = some (some "mine", [("mine", 1)]) := by decide +kernel

theorem get_mergeKw {D : Type} (json user : Dict (Dict D)) (k : String) (h : k ∉ json.keys) : (mergeKw user json).get k = user.get k := by
  induction json generalizing user with
  | nil => rfl
  | cons p json ih =>
    obtain ⟨pk, pd⟩ := p
    simp only [Dict.keys, List.map_cons, List.mem_cons, not_or] at h
    unfold mergeKw at ih ⊢
    simp only [List.foldl_cons]
    rw [ih _ h.2]
    cases user.get pk <;> simp only [get_set, if_neg h.1]

/-- The dictionary of a keyword for which the files have nothing is left as it is. -/
theorem C124_dictionary_partial {D : Type} (a : Args D) (hn : a.user.keys.Nodup) (p : String × Dict D) (hp : p ∈ a.user) (hk : p.1 ∉ a.json.keys) : p ∈ userAfter a := by
  unfold userAfter
  refine List.mem_map.2 ⟨p, hp, ?_⟩
  rw [get_mergeKw _ _ _ hk]
  have : a.user.get p.1 = some p.2 := by
    have key : ∀ l : Dict (Dict D), l.keys.Nodup → p ∈ l → l.get p.1 = some p.2 := by
      intro l
      induction l with
      | nil => intro _ h; simp at h
      | cons q l ih =>
        intro hnd hm
        have hnd' := List.nodup_cons.1 (by simpa [Dict.keys] using hnd : (q.1 :: l.map (·.1)).Nodup)
        rcases List.mem_cons.1 hm with rfl | hm
        · simp [Dict.get]
        · have hne : ¬ q.1 = p.1 := by
            intro e
            apply hnd'.1
            rw [e]
            exact List.mem_map_of_mem hm
          have := ih hnd'.2 hm
          unfold Dict.get at this ⊢
          simpa [hne] using this
    exact key _ hn hp
  rw [this]
  rfl

example : ("DIPPR101_parameters", [("mine", 1)]) ∈ userAfter ({ user := [("DIPPR101_parameters", [("mine", 1)])], json := [("DIPPR100_parameters", [("Fit 2023", 2)])] } : Args ℕ) := by decide +kernel

/-! ## Representations -/

/-- The fits that `as_string` writes (1633-1652). -/
def printed : List String := ["POLY_FIT", "EXP_POLY_FIT", "EXP_POLY_FIT_LN_TAU", "POLY_FIT_LN_TAU"]

/-- `as_string` as arguments of the constructor: the active method, the fits of four kinds, and the rest of the arguments (1594-1683). -/
def reprArgs {D : Type} (a : Args D) (current : Option String) : Args D := { a with method := some current, fits := a.fits.filter fun p => p.1 ∈ printed }

/-- Without fits, the object built from the representation has the same active method. -/
theorem C124_repr_partial {D : Type} (a : Args D) (m : String) (o : Obj D) (hf : a.fits = []) (hd : m ∉ a.doNotSet) (h : construct (reprArgs a (some m)) = some o) : o.method = some m :=
  C124_explicit_partial _ o h m rfl (by simp [reprArgs, hf]) hd

example : (construct (reprArgs ({ loaded := ["A", "B"], ranked := ["A"] } : Args ℕ) (some "B"))).map (·.method) = some (some "B") := by decide +kernel

/-- An object with a polynomial fit whose active method is another one is rebuilt from its representation with the fit active; one with a stable or Chebyshev fit cannot be rebuilt, as the fit is not written and the method is unknown. -/
theorem C124_repr_fails :
    (construct (reprArgs ({ loaded := ["WAGNER_MCGARRY"], fits := [("EXP_POLY_FIT", true)] } : Args ℕ) (some "WAGNER_MCGARRY"))).map (·.method) = some (some "EXP_POLY_FIT") ∧
    ∀ n ∈ fitOrder, n ∉ printed → (construct ({ fits := [(n, true)] } : Args ℕ)).map (·.method) = some (some n) ∧ (construct (reprArgs ({ fits := [(n, true)] } : Args ℕ) (some n))).isNone = true := by
  constructor
  · decide +kernel
  · have : ∀ n ∈ fitOrder, (n ∈ printed ∨ ((construct ({ fits := [(n, true)] } : Args ℕ)).map (·.method) = some (some n) ∧ (construct (reprArgs ({ fits := [(n, true)] } : Args ℕ) (some n))).isNone = true)) := by decide +kernel
    intro n hn hp
    exact (this n hn).resolve_left hp

/-- `as_poly_fit` (2912-2951): the fit whose constructor call is returned; `error` is the `ValueError` without any fit; the branches test the active method rather than the fit found. -/
inductive PolyFit
  | call (fit : String)
  | nothing
  | error
  deriving DecidableEq

def asPolyFit {D : Type} (o : Obj D) : PolyFit :=
  let use := match o.method with
    | some m => if m ∈ fitOrder then some m else fitOrder.find? (· ∈ o.all)
    | none => fitOrder.find? (· ∈ o.all)
  match use with
  | none => .error
  | some _ => match o.method with
    | some m => if m ∈ fitOrder then .call m else .nothing
    | none => .nothing

/-- With an active fit, the call written builds an object with that fit active. -/
theorem C124_as_poly_fit_partial {D : Type} (o : Obj D) (m : String) (h : o.method = some m) (hm : m ∈ fitOrder) : asPolyFit o = .call m ∧
    (construct ({ fits := [(m, true)] } : Args D)).map (·.method) = some (some m) := by
  constructor
  · simp [asPolyFit, h, hm]
  · simp only [fitOrder, List.mem_cons, List.not_mem_nil, or_false] at hm
    rcases hm with rfl | rfl | rfl | rfl | rfl | rfl | rfl | rfl | rfl | rfl | rfl | rfl <;> rfl

example : asPolyFit (⟨["POLY_FIT"], some "POLY_FIT", [], ["POLY_FIT"]⟩ : Obj ℕ) = .call "POLY_FIT" := by decide +kernel

/-- With another active method nothing is returned although there is a fit. -/
theorem C124_as_poly_fit_fails : asPolyFit (⟨["WAGNER_MCGARRY", "EXP_POLY_FIT"], some "WAGNER_MCGARRY", [], ["EXP_POLY_FIT"]⟩ : Obj ℕ) = .nothing ∧
    asPolyFit (⟨["WAGNER_MCGARRY"], some "WAGNER_MCGARRY", [], []⟩ : Obj ℕ) = .error := by decide +kernel

/-- `_custom_from_json` (1826-1862): the restored attributes, then `_add_extra_correlations`, whose `add_method` sets `_method` (3766). -/
def fromJson {D : Type} (extras : List String) (o : Obj D) : Obj D := extras.foldl (fun o n => { o with method := some n, all := if n ∈ o.all then o.all else o.all ++ [n] }) o

/-- A substance without extra methods keeps its active method through JSON, and so does one whose active method is the last extra one. -/
theorem C124_json_partial {D : Type} (extras : List String) (o : Obj D) (h : extras = [] ∨ ∃ m, o.method = some m ∧ extras.getLast? = some m) : (fromJson extras o).method = o.method := by
  rcases h with rfl | ⟨m, hm, hl⟩
  · rfl
  · rcases List.eq_nil_or_concat extras with rfl | ⟨l, x, rfl⟩
    · simp at hl
    · rw [List.concat_eq_append] at hl ⊢
      simp only [List.getLast?_append, List.getLast?_singleton, Option.some_or, Option.some.injEq] at hl
      subst hl
      unfold fromJson
      rw [List.foldl_append]
      simp [hm]

example : (["HUBER_LAESECKE_FRIEND_2006"] : List String).getLast? = some "HUBER_LAESECKE_FRIEND_2006" := rfl

/-- The vapour pressure of mercury set to another method comes back from JSON with the extra method active. -/
theorem C124_json_fails : (fromJson ["HUBER_LAESECKE_FRIEND_2006"] (⟨["DIPPR_PERRY_8E", "HUBER_LAESECKE_FRIEND_2006"], some "DIPPR_PERRY_8E", [], []⟩ : Obj ℕ)).method = some "HUBER_LAESECKE_FRIEND_2006" := by decide +kernel

/-- `add_correlation` with coefficients that `_optimize_added_correlation` refuses (3486-3488): the state left behind, and whether it raised. The method is registered (3694-3700) before the check (3701-3702). -/
def addChecked {D : Type} (o : Obj D) (n : String) (d : D) (coefficientsOk : Bool) : Obj D × Bool :=
  if n ∈ o.all then (o, false)
  else
    let o' : Obj D := { o with all := o.all ++ [n], corr := o.corr ++ [(n, d)] }
    if coefficientsOk then ({ o' with method := some n }, true) else (o', false)

/-- A correlation that is accepted becomes active; one with a name in use leaves the object as it was. -/
theorem C124_add_partial {D : Type} (o : Obj D) (n : String) (d : D) (ok : Bool) : ((addChecked o n d ok).2 = true → (addChecked o n d ok).1.method = some n ∧ n ∈ (addChecked o n d ok).1.all ∧ addCorr o n d = some (addChecked o n d ok).1) ∧
    (n ∈ o.all → (addChecked o n d ok).1 = o) ∧ (addChecked o n d ok).1.method ∈ [o.method, some n] := by
  unfold addChecked addCorr
  by_cases h : n ∈ o.all
  · simp [h]
  · cases ok <;> simp [h]

example : (addChecked (⟨[], none, [], []⟩ : Obj ℕ) "mine" 1 true).2 = true := by decide +kernel

/-- A refused correlation remains registered: it is listed among the methods, and adding the corrected one under the same name fails. -/
theorem C124_add_fails : (addChecked (⟨[], none, [], []⟩ : Obj ℕ) "mine" 1 false).2 = false ∧ "mine" ∈ (addChecked (⟨[], none, [], []⟩ : Obj ℕ) "mine" 1 false).1.all ∧
    (addChecked (addChecked (⟨[], none, [], []⟩ : Obj ℕ) "mine" 1 false).1 "mine" 2 true).2 = false := by decide +kernel

end Verif.Construct
