import Mathlib.Data.List.Sort
import Mathlib.Data.Rat.Defs
import Mathlib.Tactic

/-!
# C163: databases of parameters: choice of a table, defaults, validation

`thermo/interaction_parameters.py`: `InteractionParameterDB.validate_table` (119-144), `get_tables_with_type` (217-239), `get_ip_automatic`
(241-267), with `has_ip_specific` (172-179) and `get_ip_specific` (208-215); `ScalarParameterDB`: `get_parameter_specific` (429-432),
`has_parameter_specific` (458-461), `get_tables_with_type` (482-486), `get_parameter_automatic` (511-512), `get_parameter_vector` (540-546).

A database is the list of its tables in the order in which they were loaded, which is the order of a Python `dict`; names are distinct. A
table is a partial function from component (scalars) or list of components (interactions, the key split at its spaces) and parameter name
to a value. `check_CAS` of `chemicals` is an arbitrary predicate. The outer `none` is an exception. Reading of the files is not modelled;
the rows used in the counterexamples are rows of the files in `thermo/Scalar Parameters` and `thermo/Interaction Parameters`.
-/

namespace Verif.Databases

/-- Values in the files: `null`, not a number, or a number. -/
inductive Val where
  | null
  | nan
  | num (q : ℚ)
  deriving DecidableEq

/-- A table of rows by key, with its metadata. -/
structure Table (K : Type) where
  rows : K → Option (String → Option Val)
  missing : String → Option Val
  type : String
  symmetric : Bool
  components : ℕ
  necessary : List String

/-- A database: names with tables, in the order of loading. -/
abbrev Db (K : Type) := List (String × Table K)

variable {K : Type}

/-- The value stored in the table, if any. -/
def Table.stored (t : Table K) (k : K) (p : String) : Option Val := (t.rows k).bind fun r => r p

/-- `get_parameter_specific` (429-432) and the end of `get_ip_specific` (212-215), once the table is known. -/
def Table.get (t : Table K) (k : K) (p : String) : Option Val :=
  match t.stored k p with
  | some v => some v
  | none => t.missing p

/-- `has_parameter_specific` (458-461). -/
def Table.has (t : Table K) (k : K) (p : String) : Bool :=
  match t.rows k with
  | none => false
  | some r => (r p).isSome

/-- The table of a name, and a value from it; an unknown name is a `KeyError`. -/
def specific (db : Db K) (name : String) (k : K) (p : String) : Option Val := (db.lookup name).bind fun t => t.get k p

/-- `ScalarParameterDB.get_tables_with_type` (482-486): tables with a default for the parameter. -/
def declaring (db : Db K) (p : String) : List String := (db.filter fun t => (t.2.missing p).isSome).map Prod.fst

/-- `InteractionParameterDB.get_tables_with_type` (235-239). -/
def ofType (db : Db K) (ty : String) : List String := (db.filter fun t => t.2.type = ty).map Prod.fst

/-- `get_parameter_automatic` (511-512); an empty list is an `IndexError`. -/
def scalarAuto (db : Db K) (k : K) (p : String) : Option Val := (declaring db p).head?.bind fun n => specific db n k p

/-- `get_parameter_vector` (540-546). -/
def vector (db : Db K) (name : String) (p : String) : List K → Option (List Val)
  | [] => some []
  | k :: ks => (specific db name k p).bind fun v => (vector db name p ks).map fun vs => v :: vs

/-! ## One table -/

/-- The presence test is true exactly when a value is stored; the stored value is returned, and the default otherwise. -/
theorem C163_value (t : Table K) (k : K) (p : String) :
    (t.has k p = true ↔ ∃ r v, t.rows k = some r ∧ r p = some v) ∧ (∀ r v, t.rows k = some r → r p = some v → t.get k p = some v) ∧
    (t.has k p = false → t.get k p = t.missing p) := by
  refine ⟨?_, fun r v hr hv => ?_, fun h => ?_⟩
  · unfold Table.has
    cases hr : t.rows k with
    | none => simp
    | some r => simp [Option.isSome_iff_exists]
  · simp [Table.get, Table.stored, hr, hv]
  · unfold Table.has at h
    unfold Table.get Table.stored
    cases hr : t.rows k with
    | none => rfl
    | some r =>
      rw [hr] at h
      have : r p = none := by simpa using h
      simp [this]

/-- A vector of parameters has one entry for each component, in the order asked for. -/
theorem C163_vector (db : Db K) (name : String) (p : String) (ks : List K) (vs : List Val) :
    vector db name p ks = some vs ↔ List.Forall₂ (fun k v => specific db name k p = some v) ks vs := by
  induction ks generalizing vs with
  | nil =>
    simp [vector, eq_comm]
  | cons k ks ih =>
    unfold vector
    constructor
    · intro h
      rw [Option.bind_eq_some_iff] at h
      obtain ⟨v, hv, h⟩ := h
      rw [Option.map_eq_some_iff] at h
      obtain ⟨ws, hw, rfl⟩ := h
      exact .cons hv ((ih ws).1 hw)
    · intro h
      cases h with
      | cons hv hw => rw [hv, Option.bind_some, (ih _).2 hw]; rfl

/-- The call for a vector of a table that is loaded raises exactly when some component has neither a value nor a default. -/
theorem C163_vector_raises (db : Db K) (name : String) (t : Table K) (h : db.lookup name = some t) (p : String) (ks : List K) :
    vector db name p ks = none ↔ t.missing p = none ∧ ∃ k ∈ ks, t.has k p = false := by
  have hs : ∀ k, specific db name k p = t.get k p := fun k => by simp [specific, h]
  have hg : ∀ k, t.get k p = none ↔ t.missing p = none ∧ t.has k p = false := by
    intro k
    obtain ⟨h1, h2, h3⟩ := C163_value t k p
    cases hh : t.has k p with
    | false => simp [h3 hh]
    | true =>
      obtain ⟨r, v, hr, hv⟩ := h1.1 hh
      simp [h2 r v hr hv]
  induction ks with
  | nil => simp [vector]
  | cons k ks ih =>
    unfold vector
    rw [hs k]
    cases hk : t.get k p with
    | none =>
      have := (hg k).1 hk
      simp [this.1, this.2]
    | some v =>
      have hk' : ¬ (t.missing p = none ∧ t.has k p = false) := fun hh => by rw [(hg k).2 hh] at hk; cases hk
      rw [Option.bind_some]
      refine (Option.map_eq_none_iff.trans ih).trans ?_
      constructor
      · rintro ⟨h1, k', h2, h3⟩
        exact ⟨h1, k', List.mem_cons_of_mem _ h2, h3⟩
      · rintro ⟨h1, k', h2, h3⟩
        rcases List.mem_cons.1 h2 with rfl | h2
        · exact absurd ⟨h1, h3⟩ hk'
        · exact ⟨h1, k', h2, h3⟩

/-! ## Which table -/

/-- The tables listed for a parameter are those with a default for it, and for a type those of that type; both in the order of loading. -/
theorem C163_tables (db : Db K) (p ty : String) :
    (∀ n, n ∈ declaring db p ↔ ∃ t, (n, t) ∈ db ∧ t.missing p ≠ none) ∧ (∀ n, n ∈ ofType db ty ↔ ∃ t, (n, t) ∈ db ∧ t.type = ty) ∧
    (declaring db p).Sublist (db.map Prod.fst) ∧ (ofType db ty).Sublist (db.map Prod.fst) := by
  refine ⟨fun n => ?_, fun n => ?_, List.Sublist.map _ List.filter_sublist, List.Sublist.map _ List.filter_sublist⟩
  · simp [declaring, Option.isSome_iff_ne_none]
  · simp [ofType]

theorem lookup_mem : ∀ {db : Db K} {n : String} {t : Table K}, (db.map Prod.fst).Nodup → (n, t) ∈ db → db.lookup n = some t
  | [], _, _, _, h => by cases h
  | (m, s) :: db, n, t, hn, h => by
    rw [List.map_cons, List.nodup_cons] at hn
    rcases List.mem_cons.1 h with h | h
    · cases h
      simp
    · have hne : n ≠ m := fun e => hn.1 (e ▸ List.mem_map.2 ⟨_, h, rfl⟩)
      rw [List.lookup_cons]
      have : (n == m) = false := by simpa using hne
      rw [this]
      exact lookup_mem hn.2 h

/-- What `get_parameter_automatic` does: it takes the first table with a default for the parameter, whether or not that table has a row. -/
theorem C163_automatic (before after : Db K) (n : String) (t : Table K) (hn : ((before ++ (n, t) :: after).map Prod.fst).Nodup) (k : K) (p : String)
    (hb : ∀ x ∈ before, x.2.missing p = none) (ht : t.missing p ≠ none) :
    scalarAuto (before ++ (n, t) :: after) k p = t.get k p ∧ scalarAuto (before ++ (n, t) :: after) k p ≠ none := by
  have hf : (declaring (before ++ (n, t) :: after) p).head? = some n := by
    unfold declaring
    rw [List.filter_append, List.filter_eq_nil_iff.2 fun x hx => by simp [hb x hx], List.nil_append,
      List.filter_cons_of_pos (by simpa [Option.isSome_iff_ne_none] using ht)]
    rfl
  have he : scalarAuto (before ++ (n, t) :: after) k p = t.get k p := by
    unfold scalarAuto specific
    rw [hf, Option.bind_some, lookup_mem (t := t) hn (by simp), Option.bind_some]
  refine ⟨he, ?_⟩
  rw [he]
  unfold Table.get
  cases t.stored k p with
  | none => exact ht
  | some v => simp

/-- It raises exactly when no table has a default for the parameter. -/
theorem C163_automatic_raises (db : Db K) (hn : (db.map Prod.fst).Nodup) (k : K) (p : String) :
    scalarAuto db k p = none ↔ ∀ x ∈ db, x.2.missing p = none := by
  constructor
  · intro h
    by_contra hx
    have he : (db.filter fun t => (t.2.missing p).isSome) ≠ [] := by
      intro hnil
      apply hx
      intro x hxm
      have := (List.filter_eq_nil_iff.1 hnil) x hxm
      simpa using this
    obtain ⟨y, ys, hy⟩ := List.exists_cons_of_ne_nil he
    have hym : y ∈ db.filter fun t => (t.2.missing p).isSome := by rw [hy]; simp
    obtain ⟨h1, h2⟩ := List.mem_filter.1 hym
    have hd : scalarAuto db k p = y.2.get k p := by
      unfold scalarAuto specific declaring
      rw [hy]
      show (db.lookup y.1).bind _ = _
      rw [lookup_mem hn (show (y.1, y.2) ∈ db from h1)]
      rfl
    rw [hd] at h
    unfold Table.get at h
    cases hs : y.2.stored k p with
    | none =>
      rw [hs] at h
      have h' : y.2.missing p = none := h
      rw [h'] at h2
      cases h2
    | some v => rw [hs] at h; cases h
  · intro h
    unfold scalarAuto declaring
    rw [List.filter_eq_nil_iff.2 fun x hx => by simp [h x hx]]
    rfl

/-- The documented result: the value of the first table that contains one. -/
def FirstValue (db : Db K) (k : K) (p : String) (v : Val) : Prop :=
  ∃ before after x, db = before ++ x :: after ∧ (∀ b ∈ before, b.2.has k p = false) ∧ ∃ r, x.2.rows k = some r ∧ r p = some v

/-- The documented result is returned if the first table with a default contains the value and tables without a default do not. -/
theorem C163_automatic_partial (db : Db K) (hn : (db.map Prod.fst).Nodup) (k : K) (p : String) (v : Val) (before after : Db K) (n : String)
    (t : Table K) (hdb : db = before ++ (n, t) :: after) (hb : ∀ x ∈ before, x.2.missing p = none ∧ x.2.has k p = false)
    (ht : t.missing p ≠ none) (r : String → Option Val) (hr : t.rows k = some r) (hv : r p = some v) :
    FirstValue db k p v ∧ scalarAuto db k p = some v := by
  subst hdb
  refine ⟨⟨before, after, (n, t), rfl, fun b hb' => (hb b hb').2, r, hr, hv⟩, ?_⟩
  rw [(C163_automatic before after n t hn k p (fun x hx => (hb x hx).1) ht).1]
  exact (C163_value t k p).2.1 r v hr hv

/-! ### The files that come with the library -/

/-- Defaults of `PRTwu_PinaMartinez.json` and `PRTwu_ibell_2018.json`. -/
def twuMissing : String → Option Val
  | "TwuPRL" => some .null
  | "TwuPRM" => some .null
  | "TwuPRN" => some .null
  | "TwuPRc" => some (.num 0)
  | _ => none

/-- `PRTwu_PinaMartinez.json`, of which one row is kept; it has none for `100-06-1`. -/
def pina : Table String where
  rows := fun k => if k = "7727-37-9" then some fun p => if p = "TwuPRL" then some (.num (1243 / 10000)) else none else none
  missing := twuMissing
  type := ""
  symmetric := false
  components := 1
  necessary := ["TwuPRL", "TwuPRM", "TwuPRN", "TwuPRc"]

/-- `PRTwu_ibell_2018.json`, of which the row of `100-06-1` is kept. -/
def ibell : Table String where
  rows := fun k => if k = "100-06-1" then some fun p => if p = "TwuPRL" then some (.num (1168536340329227 / 1000000000000000)) else none else none
  missing := twuMissing
  type := ""
  symmetric := false
  components := 1
  necessary := ["TwuPRL", "TwuPRM", "TwuPRN", "TwuPRc"]

/-- Nitrogen is found. -/
example : FirstValue [("PRTwu_PinaMartinez", pina), ("PRTwu_ibell_2018", ibell)] "7727-37-9" "TwuPRL" (.num (1243 / 10000)) ∧
    scalarAuto [("PRTwu_PinaMartinez", pina), ("PRTwu_ibell_2018", ibell)] "7727-37-9" "TwuPRL" = some (.num (1243 / 10000)) :=
  C163_automatic_partial _ (by decide) _ _ _ [] [("PRTwu_ibell_2018", ibell)] "PRTwu_PinaMartinez" pina rfl (by simp) (by decide) _ rfl rfl

/-- **C163 fails.** "Get an interaction parameter for the first table containing the value" returns `None` for the 1274 components that only the
second table with Twu parameters for Peng-Robinson contains, for instance `100-06-1`. -/
theorem C163_automatic_fails :
    FirstValue [("PRTwu_PinaMartinez", pina), ("PRTwu_ibell_2018", ibell)] "100-06-1" "TwuPRL" (.num (1168536340329227 / 1000000000000000)) ∧
    scalarAuto [("PRTwu_PinaMartinez", pina), ("PRTwu_ibell_2018", ibell)] "100-06-1" "TwuPRL" = some .null := by
  refine ⟨⟨[("PRTwu_PinaMartinez", pina)], [], ("PRTwu_ibell_2018", ibell), rfl, ?_, _, rfl, rfl⟩, by decide +kernel⟩
  intro b hb
  rw [List.mem_singleton] at hb
  subst hb
  decide +kernel

/-- **C163 fails.** A table without a default for a parameter that it stores is not looked at: the call raises. -/
theorem C163_undeclared_fails :
    FirstValue [("a", { pina with missing := fun _ => none })] "7727-37-9" "TwuPRL" (.num (1243 / 10000)) ∧
    scalarAuto [("a", { pina with missing := fun _ => none })] "7727-37-9" "TwuPRL" = none :=
  ⟨⟨[], [], _, rfl, by simp, _, rfl, rfl⟩, rfl⟩

/-! ## Interactions -/

variable {C : Type} [LinearOrder C]

/-- The key for a list of components (172-175, 208-211), split at its spaces. -/
def key (t : Table (List C)) (cas : List C) : List C := if t.symmetric then cas.insertionSort (· ≤ ·) else cas

/-- `get_ip_specific` (208-215). -/
def getIp (t : Table (List C)) (cas : List C) (p : String) : Option Val := t.get (key t cas) p

/-- `get_ip_automatic` (266-267). -/
def pairAuto (db : Db (List C)) (cas : List C) (ty p : String) : Option Val :=
  (ofType db ty).head?.bind fun n => (db.lookup n).bind fun t => getIp t cas p

/-- What `get_ip_automatic` does: it takes the first table of the type, and raises without one. -/
theorem C163_pair_automatic (before after : Db (List C)) (n : String) (t : Table (List C))
    (hn : ((before ++ (n, t) :: after).map Prod.fst).Nodup) (cas : List C) (p : String) (hb : ∀ x ∈ before, x.2.type ≠ t.type) :
    pairAuto (before ++ (n, t) :: after) cas t.type p = getIp t cas p ∧
    ∀ ty, (∀ x ∈ before ++ (n, t) :: after, x.2.type ≠ ty) → pairAuto (before ++ (n, t) :: after) cas ty p = none := by
  constructor
  · have hf : (ofType (before ++ (n, t) :: after) t.type).head? = some n := by
      unfold ofType
      rw [List.filter_append, List.filter_eq_nil_iff.2 fun x hx => by simp [hb x hx], List.nil_append, List.filter_cons_of_pos (by simp)]
      rfl
    unfold pairAuto
    rw [hf, Option.bind_some, lookup_mem (t := t) hn (by simp), Option.bind_some]
  · intro ty h
    unfold pairAuto ofType
    rw [List.filter_eq_nil_iff.2 fun x hx => by simp [h x hx]]
    rfl

/-- A table for Henry's law with one row for the numbers of two components. -/
def henry (a b : ℕ) (v : ℚ) : Table (List ℕ) where
  rows := fun k => if k = [a, b] then some fun p => if p = "A" then some (.num v) else none else none
  missing := fun p => if p ∈ ["A", "B", "C", "D", "E", "F"] then some (.num 0) else none
  type := "henry"
  symmetric := false
  components := 2
  necessary := ["A", "B", "C", "D", "E", "F"]

/-- **C163 fails.** Four tables have the type `henry` and the first has 41 rows: for `100-02-7` in water, which a later table contains, the
coefficient is zero. CAS numbers are written without dashes. -/
theorem C163_pair_automatic_fails :
    FirstValue [("ChemSep Henry", henry 7782447 7732185 1), ("Sander T dep", henry 100027 7732185 (3169098162186652 / 100000000000000))]
      [100027, 7732185] "A" (.num (3169098162186652 / 100000000000000)) ∧
    pairAuto [("ChemSep Henry", henry 7782447 7732185 1), ("Sander T dep", henry 100027 7732185 (3169098162186652 / 100000000000000))]
      [100027, 7732185] "henry" "A" = some (.num 0) := by
  refine ⟨⟨[("ChemSep Henry", henry 7782447 7732185 1)], [], ("Sander T dep", _), rfl, ?_, _, rfl, rfl⟩, by decide +kernel⟩
  intro b hb
  rw [List.mem_singleton] at hb
  subst hb
  decide +kernel

/-! ## Validation -/

/-- One assertion on a value (138-144). -/
def goodVal (r : String → Option Val) (p : String) : Bool :=
  match r p with
  | none => false
  | some .null => false
  | some .nan => false
  | some (.num _) => true

/-- `validate_table` (124-144) for the keys of the table: true if no assertion fails. -/
def validate (check : C → Bool) (t : Table (List C)) (keys : List (List C)) : Bool :=
  keys.all fun k => (k.length == t.components) && k.all check &&
    match t.rows k with
    | none => false
    | some r => t.necessary.all (goodVal r)

/-- The documented meaning: components and numbers of all rows are fine. -/
theorem C163_validate (check : C → Bool) (t : Table (List C)) (keys : List (List C)) :
    validate check t keys = true ↔ ∀ k ∈ keys, k.length = t.components ∧ (∀ c ∈ k, check c = true) ∧
      ∃ r, t.rows k = some r ∧ ∀ p ∈ t.necessary, ∃ q, r p = some (.num q) := by
  have hg : ∀ (r : String → Option Val) (p : String), goodVal r p = true ↔ ∃ q, r p = some (.num q) := by
    intro r p
    unfold goodVal
    cases r p with
    | none => simp
    | some v => cases v <;> simp
  unfold validate
  rw [List.all_eq_true]
  refine forall₂_congr fun k _ => ?_
  cases hr : t.rows k with
  | none => simp
  | some r => simp [hg, and_assoc]

/-- In a valid table every necessary parameter of a stored list of components is returned as stored, in any order if the table is symmetric and its
keys are sorted as documented, and in the order of the key otherwise. -/
theorem C163_valid_found_partial (check : C → Bool) (t : Table (List C)) (keys : List (List C)) (hv : validate check t keys = true)
    (k : List C) (hk : k ∈ keys) (p : String) (hp : p ∈ t.necessary) :
    ∃ r q, t.rows k = some r ∧ r p = some (.num q) ∧ (t.symmetric = false → getIp t k p = some (.num q)) ∧
      (t.symmetric = true → k.Pairwise (· ≤ ·) → ∀ cas : List C, cas.Perm k → getIp t cas p = some (.num q)) := by
  obtain ⟨-, -, r, hr, h⟩ := (C163_validate check t keys).1 hv k hk
  obtain ⟨q, hq⟩ := h p hp
  refine ⟨r, q, hr, hq, fun hs => ?_, fun hs hsorted cas hc => ?_⟩
  · unfold getIp key
    rw [hs]
    exact (C163_value t k p).2.1 r _ hr hq
  · have : cas.insertionSort (· ≤ ·) = k := by
      apply List.Perm.eq_of_pairwise (le := (· ≤ ·))
      · intro a b _ _ h1 h2; exact le_antisymm h1 h2
      · exact List.pairwise_insertionSort _ _
      · exact hsorted
      · exact (List.perm_insertionSort _ _).trans hc
    unfold getIp key
    rw [hs, if_pos rfl, this]
    exact (C163_value t k p).2.1 r _ hr hq

/-- A symmetric table with one row. -/
def one (k : List ℕ) : Table (List ℕ) where
  rows := fun k' => if k' = k then some fun p => if p = "kij" then some (.num (533 / 10000)) else none else none
  missing := fun p => if p = "kij" then some (.num 0) else none
  type := "PR kij"
  symmetric := true
  components := 2
  necessary := ["kij"]

/-- Ethane and nitrogen as in the file `pr.json`. -/
example : validate (fun _ => true) (one [74840, 7727379]) [[74840, 7727379]] = true ∧ "kij" ∈ (one [74840, 7727379]).necessary ∧
    [74840, 7727379].Pairwise (· ≤ ·) ∧ [7727379, 74840].Perm [74840, 7727379] ∧
    getIp (one [74840, 7727379]) [7727379, 74840] "kij" = some (.num (533 / 10000)) := by
  refine ⟨by decide +kernel, by simp [one], by decide, by decide, by decide +kernel⟩

/-- **C163 fails.** Validation does not look at the order of the components in a key: a symmetric table with an unsorted key passes, and its value is
never found, whatever the order in the question. -/
theorem C163_unsorted_fails : validate (fun _ => true) (one [7727379, 74840]) [[7727379, 74840]] = true ∧
    ∀ cas : List ℕ, cas.Perm [7727379, 74840] → getIp (one [7727379, 74840]) cas "kij" = some (.num 0) := by
  refine ⟨by decide +kernel, fun cas hc => ?_⟩
  have : cas.insertionSort (· ≤ ·) = [74840, 7727379] := by
    apply List.Perm.eq_of_pairwise (le := (· ≤ ·))
    · intro a b _ _ h1 h2; exact le_antisymm h1 h2
    · exact List.pairwise_insertionSort _ _
    · decide
    · exact (List.perm_insertionSort _ _).trans (hc.trans (by decide))
  unfold getIp key
  rw [show (one [7727379, 74840]).symmetric = true from rfl, if_pos rfl, this]
  decide +kernel

/-- **C163 fails.** Nor at the defaults: in a valid table a necessary parameter of a pair that is not stored raises if it has no default. -/
theorem C163_default_fails : validate (fun _ => true) { one [74840, 7727379] with missing := fun _ => none } [[74840, 7727379]] = true ∧
    getIp { one [74840, 7727379] with missing := fun _ => none } [74840, 74986] "kij" = none := by
  refine ⟨by decide +kernel, by decide +kernel⟩

end Verif.Databases
