import Mathlib.Algebra.BigOperators.Group.List.Basic
import Mathlib.Data.List.Basic
import Mathlib.Data.Rat.Defs
import Mathlib.Data.Finset.Basic
import Mathlib.Logic.Function.Basic
import Mathlib.Tactic

/-!
# Packages of constants and correlations (`thermo/chemical_package.py`)

* C119: `ChemicalConstantsPackage` (construction, addition, subsets, replacement, lookup, JSON hooks), the constants derived in `_from_IDs`, and
  `PropertyCorrelationsPackage` (default objects and what they refer to, addition, subsets).

Every attribute of the constants package is a list with one cell for each component, and a cell may be `None`. Exceptions are `none`. The data tables of `chemicals`
are inputs; equality of packages (`__eq__`, by hash of all attributes) is equality of all attributes.
-/

namespace Verif.ConstPack

/-- Values held in the cells: numbers, strings, atom counts, group counts with integer or string keys, exposure limits as tuple or list, functional groups as set or
list. -/
inductive Val where
  | num (q : ℚ)
  | str (s : String)
  | atoms (l : List (String × ℕ))
  | groups (l : List (ℕ × ℕ))
  | groupsS (l : List (String × ℕ))
  | tup (q : ℚ) (u : String)
  | lst (q : ℚ) (u : String)
  | fset (s : Finset String)
  | flist (l : List String)
  deriving DecidableEq

abbrev Cell := Option Val

/-- `non_vector_properties` (509-531). -/
def nonVector : List String :=
  ["atomss", "Carcinogens", "CASs", "CASis", "Ceilings", "charges", "conductivities", "dipoles", "economic_statuses", "formulas", "Gfgs", "Gfgs_mass", "GWPs", "Hcs",
   "Hcs_lower", "Hcs_lower_mass", "Hcs_mass", "Hfgs", "Hfgs_mass", "Hfus_Tms", "Hfus_Tms_mass", "Hsub_Tts", "Hsub_Tts_mass", "Hvap_298s", "Hvap_298s_mass", "Hvap_Tbs",
   "Hvap_Tbs_mass", "InChI_Keys", "InChIs", "legal_statuses", "LFLs", "logPs", "molecular_diameters", "MWs", "names", "aliases", "ODPs", "omegas", "Parachors", "Pcs",
   "phase_STPs", "Psat_298s", "PSRK_groups", "Pts", "PubChems", "rhocs", "rhocs_mass", "rhol_STPs", "rhol_STPs_mass", "RIs", "S0gs", "S0gs_mass", "Sfgs", "Sfgs_mass",
   "similarity_variables", "Skins", "smiless", "STELs", "StielPolars", "Stockmayers", "Tautoignitions", "Tbs", "Tcs", "Tflashs", "Tms", "Tts", "TWAs", "UFLs",
   "UNIFAC_Dortmund_groups", "UNIFAC_groups", "Van_der_Waals_areas", "Van_der_Waals_volumes", "Vcs", "Vml_STPs", "Vml_Tms", "Zcs", "UNIFAC_Rs", "UNIFAC_Qs", "rhos_Tms",
   "Vms_Tms", "rhos_Tms_mass", "solubility_parameters", "Vml_60Fs", "rhol_60Fs", "rhol_60Fs_mass", "conductivity_Ts", "RI_Ts", "Vmg_STPs", "rhog_STPs",
   "rhog_STPs_mass", "sigma_STPs", "sigma_Tms", "sigma_Tbs", "Hf_STPs", "Hf_STPs_mass", "functional_groups"]

/-- `properties` (533). -/
def properties : List String := "atom_fractions" :: nonVector

/-- The object: number of components, attributes, `water_index`, `n_atoms`. -/
structure Pack where
  (N : ℕ) (get : String → List Cell) (water : Option ℕ) (nAtoms : Option (List ℕ))

/-- Keyword arguments. -/
abbrev Kw := List (String × List Cell)

def waterCAS : Cell := some (.str "7732-18-5")

/-- `sum(i.values())` (1282); fails for `None` and for anything that is not a dictionary. -/
def countAtoms : Cell → Option ℕ
  | some (.atoms l) => some ((l.map (·.2)).sum)
  | _ => none

/-- `list.index` (first match). -/
def firstIdx (l : List Cell) (x : Cell) : Option ℕ := if x ∈ l then some (l.idxOf x) else none

/-- `__init__` (1027-1284): unknown keywords and missing molecular weights are `TypeError`; the lengths of the other lists are not looked at. -/
def init (kw : Kw) : Option Pack :=
  if kw.all (fun e => decide (e.1 ∈ properties)) then
    match kw.lookup "MWs" with
    | none => none
    | some ms =>
      let g : String → List Cell := fun p => (kw.lookup p).getD (List.replicate ms.length none)
      some { N := ms.length, get := g, water := firstIdx (g "CASs") waterCAS, nAtoms := (g "atomss").mapM countAtoms }
  else none

/-- `as_dict` (552-559). -/
def asDict (c : Pack) : Kw := properties.map fun p => (p, c.get p)

/-- `__add__` (663-691); `isinstance` is the type. -/
def add (a b : Pack) : Option Pack := init (properties.map fun p => (p, a.get p ++ b.get p))

/-- `with_new_constants` (693-723): `new.update(kwargs)`. -/
def withNew (c : Pack) (kw : Kw) : Option Pack := init (kw ++ nonVector.map fun p => (p, c.get p))

/-- Python's `v[i]`, negative indexes from the end. -/
def pyGet {α : Type} (v : List α) (i : ℤ) : Option α :=
  if 0 ≤ i then v[i.toNat]? else if 0 ≤ i + v.length then v[(i + v.length).toNat]? else none

/-- The argument `idxs`; slices with a start and a stop that are not negative. -/
inductive Sel where
  | all
  | list (l : List ℤ)
  | slice (a b : ℕ)

/-- What `subset` (788-809) reads of one attribute; `idxs[0]` of an empty sequence is an `IndexError`. -/
def pick (N : ℕ) : Sel → List Cell → Option (List Cell)
  | .all, v => if N = 0 then none else (List.range N).mapM fun (i : ℕ) => pyGet v i
  | .list l, v => if l = [] then none else l.mapM (pyGet v)
  | .slice a b, v => some ((v.drop a).take (b - a))

/-- The loop over properties of `subset`. -/
def collect (f : String → Option (List Cell)) : List String → Option Kw
  | [] => some []
  | p :: ps => match f p, collect f ps with
    | some v, some r => some ((p, v) :: r)
    | _, _ => none

/-- `subset` (726-811). -/
def subset (c : Pack) (s : Sel) (props : Option (List String)) : Option Pack :=
  let ps := match props with
    | none => nonVector
    | some l => if "MWs" ∈ l then l else l ++ ["MWs"]
  (collect (fun p => if p ∈ properties then pick c.N s (c.get p) else none) ps).bind init

/-- Same object as far as `==` can tell (649-661). -/
def Same (a b : Pack) : Prop := ∀ p ∈ properties, a.get p = b.get p

/-- All lists have one cell for each component. -/
def WF (c : Pack) : Prop := ∀ p ∈ properties, (c.get p).length = c.N

/-! ## Lookup -/

inductive Err | key | value
  deriving DecidableEq

/-- `{CAS: i for i, CAS in enumerate(self.CASs)}` (893): insertions in order. -/
def dictFrom : ℕ → List Cell → (Cell → Option ℕ) → Cell → Option ℕ
  | _, [], d => d
  | k, a :: l, d => dictFrom (k + 1) l (Function.update d a (some k))

/-- The arguments of `compound_index`. -/
structure Ident where
  (CAS name smiles inchi key pub : Cell)

def indexIn (l : List Cell) (x : Cell) : Except Err ℕ :=
  match firstIdx l x with
  | some i => .ok i
  | none => .error .value

/-- `compound_index` (863-877). -/
def compoundIndex (c : Pack) (q : Ident) : Except Err ℕ :=
  if q.CAS ≠ none then
    match dictFrom 0 (c.get "CASs") (fun _ => none) q.CAS with
    | some i => .ok i
    | none => .error .key
  else if q.name ≠ none then indexIn (c.get "names") q.name
  else if q.smiles ≠ none then indexIn (c.get "smiless") q.smiles
  else if q.inchi ≠ none then indexIn (c.get "InChIs") q.inchi
  else if q.key ≠ none then indexIn (c.get "InChI_Keys") q.key
  else if q.pub ≠ none then indexIn (c.get "PubChems") q.pub
  else .error .value

/-! ## JSON -/

/-- How integers are written and read back, and in which order a set is enumerated. -/
structure Codec where
  (str : ℕ → String) (int : String → ℕ) (enum : Finset String → List String)

/-- Python: `int(str(n)) == n` and `set(list(s)) == s`. -/
def Codec.Ok (k : Codec) : Prop := (∀ n, k.int (k.str n) = n) ∧ ∀ s, (k.enum s).toFinset = s

def groupNames : List String := ["PSRK_groups", "UNIFAC_Dortmund_groups", "UNIFAC_groups"]

def strKeys (k : Codec) : Val → Val
  | .groups g => .groupsS (g.map fun e => (k.str e.1, e.2))
  | v => v
def intKeys (k : Codec) : Val → Val
  | .groupsS g => .groups (g.map fun e => (k.int e.1, e.2))
  | v => v
def setToList (k : Codec) : Val → Val
  | .fset s => .flist (k.enum s)
  | v => v
def listToSet : Val → Val
  | .flist l => .fset l.toFinset
  | v => v
def toTuple : Val → Val
  | .lst q u => .tup q u
  | v => v

/-- One cell in `_custom_as_json` (563-569). -/
def encCell (k : Codec) (p : String) : Val → Val :=
  if p ∈ groupNames then strKeys k else if p = "functional_groups" then setToList k else id

/-- `json.dumps` and `json.loads`: tuples become lists, integer keys strings, and sets cannot be written. -/
def wire (k : Codec) : Val → Option Val
  | .tup q u => some (.lst q u)
  | .groups g => some (.groupsS (g.map fun e => (k.str e.1, e.2)))
  | .fset _ => none
  | v => some v

/-- One cell in `_custom_from_json` (588-597). -/
def decCell (k : Codec) (p : String) : Val → Val :=
  if p ∈ groupNames then intKeys k else if p = "functional_groups" then listToSet else if p = "TWAs" ∨ p = "STELs" then toTuple else id

/-- `_custom_as_json` (561-580): empty lists of `non_vector_properties` are left out. -/
def asJson (k : Codec) (c : Pack) : Kw :=
  (properties.filter fun p => decide (p = "atom_fractions" ∨ c.get p ≠ List.replicate c.N none)).map fun p => (p, (c.get p).map (Option.map (encCell k p)))

def wireCell (k : Codec) : Cell → Option Cell
  | none => some none
  | some v => (wire k v).map some

/-- A whole list through the text. -/
def wireList (k : Codec) (l : List Cell) : Option (List Cell) := l.mapM (wireCell k)

/-- `as_json`, the text, `_custom_from_json` (582-597): attributes that are absent become lists of `None`. -/
def roundTrip (k : Codec) (c : Pack) (p : String) : Option (List Cell) :=
  match (asJson k c).lookup p with
  | none => some (List.replicate c.N none)
  | some l => (wireList k l).map fun l => l.map (Option.map (decCell k p))

/-! ## Facts about keyword lists -/

theorem lookup_map {f : String → List Cell} {p : String} : ∀ {l : List String}, p ∈ l → (l.map fun p => (p, f p)).lookup p = some (f p)
  | [], h => by simp at h
  | q :: l, h => by
    by_cases e : p = q
    · subst e; simp
    · have h' : p ∈ l := by
        rcases List.mem_cons.1 h with h | h
        · exact absurd h e
        · exact h
      have : (p == q) = false := by simpa using e
      simp [List.lookup_cons, this, lookup_map h']

theorem lookup_map_none {f : String → List Cell} {p : String} : ∀ {l : List String}, p ∉ l → (l.map fun p => (p, f p)).lookup p = none
  | [], _ => rfl
  | q :: l, h => by
    have e : (p == q) = false := by
      simp only [List.mem_cons, not_or] at h
      simpa using h.1
    simp only [List.map_cons, List.lookup_cons, e]
    exact lookup_map_none (fun hh => h (List.mem_cons_of_mem _ hh))

theorem lookup_append {p : String} (a b : Kw) : (a ++ b).lookup p = ((a.lookup p).or (b.lookup p)) := by
  induction a with
  | nil => simp
  | cons x a ih =>
    obtain ⟨q, w⟩ := x
    simp only [List.cons_append, List.lookup_cons, ih]
    cases h : (p == q) <;> simp

theorem lookup_mem {p : String} {v : List Cell} : ∀ {kw : Kw}, kw.lookup p = some v → (p, v) ∈ kw
  | [], h => by simp at h
  | (q, w) :: kw, h => by
    rw [List.lookup_cons] at h
    cases e : (p == q) with
    | true => rw [e] at h; simp only [Option.some.injEq] at h; rw [← h, beq_iff_eq.1 e]; simp
    | false => rw [e] at h; exact List.mem_cons_of_mem _ (lookup_mem h)

theorem idxOf_le {x : Cell} : ∀ {l : List Cell} {m : ℕ}, l[m]? = some x → l.idxOf x ≤ m
  | [], m, h => by simp at h
  | a :: l, m, h => by
    by_cases e : a = x
    · subst e; simp
    · cases m with
      | zero => simp at h; exact absurd h e
      | succ m => rw [List.idxOf_cons_ne _ e]; exact Nat.succ_le_succ (idxOf_le (by simpa using h))

theorem collect_spec {f : String → Option (List Cell)} : ∀ {ps : List String} {kw : Kw}, collect f ps = some kw →
    (∀ p ∈ ps, kw.lookup p = f p ∧ (f p).isSome) ∧ (∀ p, p ∉ ps → kw.lookup p = none) ∧ ∀ e ∈ kw, e.1 ∈ ps
  | [], kw, h => by
    simp only [collect, Option.some.injEq] at h; subst h; simp
  | q :: ps, kw, h => by
    unfold collect at h
    cases hq : f q with
    | none => rw [hq] at h; simp at h
    | some v =>
      cases hr : collect f ps with
      | none => rw [hq, hr] at h; simp at h
      | some r =>
        rw [hq, hr] at h
        simp only [Option.some.injEq] at h
        subst h
        obtain ⟨h1, h2, h3⟩ := collect_spec hr
        refine ⟨?_, ?_, ?_⟩
        · intro p hp
          by_cases e : p = q
          · subst e; simp [hq]
          · have hp' : p ∈ ps := by
              rcases List.mem_cons.1 hp with h | h
              · exact absurd h e
              · exact h
            have e' : (p == q) = false := by simpa using e
            simp only [List.lookup_cons, e']
            exact h1 p hp'
        · intro p hp
          simp only [List.mem_cons, not_or] at hp
          have e' : (p == q) = false := by simpa using hp.1
          simp only [List.lookup_cons, e']
          exact h2 p hp.2
        · intro e he
          rcases List.mem_cons.1 he with h | h
          · subst h; simp
          · exact List.mem_cons_of_mem _ (h3 e h)

theorem collect_isSome {f : String → Option (List Cell)} : ∀ {ps : List String}, (∀ p ∈ ps, (f p).isSome) → (collect f ps).isSome
  | [], _ => rfl
  | q :: ps, h => by
    have h1 := h q (by simp)
    have h2 := collect_isSome (f := f) (ps := ps) fun p hp => h p (List.mem_cons_of_mem _ hp)
    obtain ⟨v, hv⟩ := Option.isSome_iff_exists.1 h1
    obtain ⟨r, hr⟩ := Option.isSome_iff_exists.1 h2
    simp [collect, hv, hr]

theorem mws_mem : "MWs" ∈ nonVector := by decide +kernel
theorem sub_props {p : String} (h : p ∈ nonVector) : p ∈ properties := List.mem_cons_of_mem _ h
theorem af_not : "atom_fractions" ∉ nonVector := by decide +kernel

theorem init_spec {kw : Kw} {c : Pack} (h : init kw = some c) :
    (∀ e ∈ kw, e.1 ∈ properties) ∧ ∃ ms, kw.lookup "MWs" = some ms ∧ c.N = ms.length ∧ (∀ p, c.get p = (kw.lookup p).getD (List.replicate ms.length none)) ∧
      c.water = firstIdx (c.get "CASs") waterCAS ∧ c.nAtoms = (c.get "atomss").mapM countAtoms := by
  unfold init at h
  split at h
  · rename_i ha
    refine ⟨fun e he => by simpa using List.all_eq_true.1 ha e he, ?_⟩
    split at h
    · simp at h
    · rename_i ms hm
      simp only [Option.some.injEq] at h
      subst h
      exact ⟨ms, hm, rfl, fun _ => rfl, rfl, rfl⟩
  · simp at h

theorem init_isSome {kw : Kw} (h : ∀ e ∈ kw, e.1 ∈ properties) {ms : List Cell} (hm : kw.lookup "MWs" = some ms) : (init kw).isSome := by
  unfold init
  rw [if_pos (List.all_eq_true.2 fun e he => by simpa using h e he), hm]
  rfl

/-- Derived attributes belong to the lists. -/
def Consistent (c : Pack) : Prop := c.water = firstIdx (c.get "CASs") waterCAS ∧ c.nAtoms = (c.get "atomss").mapM countAtoms

/-! ## C119: construction -/

/-- C119: the constructor keeps every list it is given, fills the others with one `None` for each molecular weight, and `water_index` and `n_atoms` belong to the lists
stored. It succeeds exactly when the molecular weights are given and all names are attributes. -/
theorem C119_init (kw : Kw) :
    ((init kw).isSome ↔ (∀ e ∈ kw, e.1 ∈ properties) ∧ (kw.lookup "MWs").isSome) ∧
    ∀ c, init kw = some c →
      (∀ p v, kw.lookup p = some v → c.get p = v) ∧
      (∀ p, kw.lookup p = none → c.get p = List.replicate c.N none) ∧
      c.N = (c.get "MWs").length ∧ Consistent c := by
  refine ⟨⟨fun h => ?_, fun ⟨h, hm⟩ => ?_⟩, fun c h => ?_⟩
  · obtain ⟨c, hc⟩ := Option.isSome_iff_exists.1 h
    obtain ⟨h1, ms, h2, _⟩ := init_spec hc
    exact ⟨h1, by rw [h2]; rfl⟩
  · obtain ⟨ms, hms⟩ := Option.isSome_iff_exists.1 hm
    exact init_isSome h hms
  · obtain ⟨_, ms, h2, h3, h4, h5, h6⟩ := init_spec h
    refine ⟨fun p v hv => by rw [h4, hv]; rfl, fun p hp => by rw [h4, hp, h3]; rfl, ?_, h5, h6⟩
    rw [h4, h2, h3]; rfl

/-- Two components: water, and one without data. -/
def wEthanol : Kw :=
  [("MWs", [some (.num 18), some (.num 46)]), ("CASs", [some (.str "64-17-5"), some (.str "7732-18-5")]),
   ("names", [some (.str "x"), some (.str "water")]), ("atom_fractions", [some (.atoms [("H", 1)]), some (.atoms [("O", 1)])]),
   ("atomss", [some (.atoms [("C", 2), ("H", 6), ("O", 1)]), some (.atoms [("H", 2), ("O", 1)])])]

example : ∃ c, init wEthanol = some c ∧ c.N = 2 ∧ c.water = some 1 ∧ c.nAtoms = some [9, 3] ∧ c.get "Tcs" = [none, none] :=
  ⟨_, rfl, rfl, rfl, rfl, rfl⟩

/-- C119 (`_fails`): nothing checks the lengths: two molecular weights and one critical temperature make a package of two components whose critical temperatures have one
entry. -/
theorem C119_lengths_fails : ∃ kw c, init kw = some c ∧ ¬ WF c ∧ c.N = 2 ∧ (c.get "Tcs").length = 1 :=
  ⟨[("MWs", [some (.num 18), some (.num 46)]), ("Tcs", [some (.num 647)])], _, rfl,
    fun h => by
      have := h "Tcs" (by decide +kernel)
      exact absurd this (by decide), rfl, rfl⟩

/-- C119: with lists of one length the package has one cell for each component everywhere. -/
theorem C119_wf (kw : Kw) (c : Pack) (h : init kw = some c) (n : ℕ) (hl : ∀ p v, kw.lookup p = some v → v.length = n) : WF c ∧ c.N = n := by
  obtain ⟨_, ms, h2, h3, h4, _⟩ := init_spec h
  have hn : c.N = n := by rw [h3]; exact hl _ _ h2
  refine ⟨fun p _ => ?_, hn⟩
  rw [h4]
  cases hp : kw.lookup p with
  | none => simp [h3]
  | some v => simp only [Option.getD_some]; rw [hl p v hp, hn]

/-! ## Addition -/

theorem add_spec (a b : Pack) : ∃ c, add a b = some c ∧ (∀ p ∈ properties, c.get p = a.get p ++ b.get p) ∧ c.N = (a.get "MWs").length + (b.get "MWs").length ∧
    Consistent c := by
  have hm := lookup_map (f := fun p => a.get p ++ b.get p) (sub_props mws_mem)
  have h1 : (add a b).isSome := init_isSome (by
    intro e he
    simp only [List.mem_map] at he
    obtain ⟨p, hp, rfl⟩ := he
    exact hp) hm
  obtain ⟨c, hc⟩ := Option.isSome_iff_exists.1 h1
  obtain ⟨_, ms, h2, h3, h4, h5, h6⟩ := init_spec hc
  refine ⟨c, hc, fun p hp => ?_, ?_, h5, h6⟩
  · rw [h4, lookup_map (f := fun p => a.get p ++ b.get p) hp]; rfl
  · rw [hm] at h2
    simp only [Option.some.injEq] at h2
    rw [h3, ← h2, List.length_append]

theorem firstIdx_append (l m : List Cell) (x : Cell) :
    firstIdx (l ++ m) x = if x ∈ l then firstIdx l x else (firstIdx m x).map (· + l.length) := by
  unfold firstIdx
  by_cases h : x ∈ l
  · simp [h, List.idxOf_append]
  · by_cases h' : x ∈ m
    · simp [h, h', List.idxOf_append]
    · simp [h, h']

theorem mapM_append {α β : Type} (f : α → Option β) (l m : List α) : (l ++ m).mapM f = (do let x ← l.mapM f; let y ← m.mapM f; return x ++ y) := by
  simp [List.mapM_append]

/-- C119: `a + b` always exists, has the attributes of `a` followed by those of `b` (including the atom fractions), is well formed when both are, has the water of `a` if
there is one and otherwise the shifted water of `b`, and atom counts when both have them. -/
theorem C119_add (a b : Pack) (ha : WF a) (hb : WF b) (ca : Consistent a) (cb : Consistent b) :
    ∃ c, add a b = some c ∧ c.N = a.N + b.N ∧ WF c ∧ (∀ p ∈ properties, c.get p = a.get p ++ b.get p) ∧
      c.water = (match a.water with | some i => some i | none => b.water.map (· + a.N)) ∧
      c.nAtoms = (match a.nAtoms, b.nAtoms with | some x, some y => some (x ++ y) | _, _ => none) := by
  obtain ⟨c, hc, hg, hN, hw, hn⟩ := add_spec a b
  have hN' : c.N = a.N + b.N := by rw [hN, ha _ (sub_props mws_mem), hb _ (sub_props mws_mem)]
  refine ⟨c, hc, hN', fun p hp => ?_, hg, ?_, ?_⟩
  · rw [hg p hp, List.length_append, ha p hp, hb p hp, hN']
  · have hcas : "CASs" ∈ properties := by decide +kernel
    rw [hw, hg _ hcas, firstIdx_append, ca.1, cb.1, ha _ hcas]
    by_cases h : waterCAS ∈ a.get "CASs"
    · simp [h, firstIdx]
    · simp [h, firstIdx]
  · have hat : "atomss" ∈ properties := by decide +kernel
    rw [hn, hg _ hat, mapM_append, ca.2, cb.2]
    cases (a.get "atomss").mapM countAtoms <;> cases (b.get "atomss").mapM countAtoms <;> rfl

/-- C119: adding packages is associative. -/
theorem C119_add_assoc (a b c ab bc l r : Pack) (h1 : add a b = some ab) (h2 : add ab c = some l) (h3 : add b c = some bc) (h4 : add a bc = some r) : Same l r := by
  intro p hp
  obtain ⟨x1, e1, g1, _⟩ := add_spec a b
  obtain ⟨x2, e2, g2, _⟩ := add_spec ab c
  obtain ⟨x3, e3, g3, _⟩ := add_spec b c
  obtain ⟨x4, e4, g4, _⟩ := add_spec a bc
  rw [e1] at h1; rw [e2] at h2; rw [e3] at h3; rw [e4] at h4
  cases h1; cases h2; cases h3; cases h4
  rw [g2 p hp, g1 p hp, g4 p hp, g3 p hp, List.append_assoc]

/-! ## Subsets -/

/-- The index a Python subscript stands for. -/
theorem pyGet_nonneg {α : Type} (v : List α) (i : ℕ) : pyGet v i = v[i]? := by simp [pyGet]

/-- C119: negative subscripts count from the end. -/
theorem C119_negative (v : List Cell) (i : ℕ) (h1 : 0 < i) (h2 : i ≤ v.length) : pyGet v (-(i : ℤ)) = v[v.length - i]? := by
  unfold pyGet
  rw [if_neg (by omega), if_pos (by omega)]
  congr 1
  omega

theorem mapM_some {α β : Type} {f : α → Option β} {g : α → β} : ∀ {l : List α}, (∀ x ∈ l, f x = some (g x)) → l.mapM f = some (l.map g)
  | [], _ => rfl
  | a :: l, h => by
    rw [List.mapM_cons, h a (by simp), mapM_some (l := l) fun x hx => h x (List.mem_cons_of_mem _ hx)]
    rfl

theorem pick_list {N : ℕ} {l : List ℕ} {v : List Cell} (hl : l ≠ []) (h : ∀ i ∈ l, i < v.length) :
    pick N (.list (l.map fun (i : ℕ) => (i : ℤ))) v = some (l.map fun i => v.getD i none) := by
  have h0 : (l.map fun (i : ℕ) => (i : ℤ)) ≠ [] := by simpa using hl
  simp only [pick, if_neg h0]
  rw [mapM_some (g := fun (i : ℤ) => v.getD i.toNat none)]
  · simp [List.map_map, Function.comp_def]
  · intro x hx
    simp only [List.mem_map] at hx
    obtain ⟨i, hi, rfl⟩ := hx
    rw [pyGet_nonneg]
    have := h i hi
    simp [List.getD_eq_getElem?_getD, this]

theorem pick_all {N : ℕ} {v : List Cell} (hN : N ≠ 0) (h : v.length = N) : pick N .all v = some v := by
  simp only [pick, if_neg hN]
  rw [mapM_some (g := fun (i : ℕ) => v.getD i none)]
  · congr 1
    apply List.ext_getElem
    · simp [h]
    · intro i h1 h2
      simp [List.getD_eq_getElem?_getD, h2]
  · intro i hi
    rw [pyGet_nonneg]
    have : i < v.length := by rw [h]; simpa using hi
    simp [List.getD_eq_getElem?_getD, this]

/-- A subset of all properties, from what it reads of each. -/
theorem subset_spec (c : Pack) (s : Sel) (f : List Cell → List Cell) (h : ∀ p ∈ nonVector, pick c.N s (c.get p) = some (f (c.get p))) :
    ∃ d, subset c s none = some d ∧ (∀ p ∈ nonVector, d.get p = f (c.get p)) ∧ d.N = (f (c.get "MWs")).length ∧
      d.get "atom_fractions" = List.replicate d.N none ∧ Consistent d := by
  have hf : ∀ p ∈ nonVector, (if p ∈ properties then pick c.N s (c.get p) else none) = some (f (c.get p)) := fun p hp => by
    rw [if_pos (sub_props hp), h p hp]
  have hs : (collect (fun p => if p ∈ properties then pick c.N s (c.get p) else none) nonVector).isSome := collect_isSome fun p hp => by rw [hf p hp]; rfl
  obtain ⟨kw, hkw⟩ := Option.isSome_iff_exists.1 hs
  obtain ⟨h1, h2, h3⟩ := collect_spec hkw
  have hm : kw.lookup "MWs" = some (f (c.get "MWs")) := by rw [(h1 _ mws_mem).1, hf _ mws_mem]
  obtain ⟨d, hd⟩ := Option.isSome_iff_exists.1 (init_isSome (fun e he => sub_props (h3 e he)) hm)
  obtain ⟨_, ms, k2, k3, k4, k5, k6⟩ := init_spec hd
  rw [hm] at k2
  simp only [Option.some.injEq] at k2
  refine ⟨d, ?_, fun p hp => ?_, by rw [k3, k2], ?_, k5, k6⟩
  · simp only [subset]
    rw [hkw]; exact hd
  · rw [k4, (h1 p hp).1, hf p hp]; rfl
  · rw [k4, h2 _ af_not, k3]; rfl

/-- C119: `subset(idxs)` of a package with one cell for each component has, at position `k` of each of the 97 attributes it copies, what the original has at `idxs[k]`,
in any order and with repetitions. -/
theorem C119_subset (c : Pack) (hc : WF c) (l : List ℕ) (hl : l ≠ []) (hi : ∀ i ∈ l, i < c.N) :
    ∃ d, subset c (.list (l.map fun (i : ℕ) => (i : ℤ))) none = some d ∧ d.N = l.length ∧ WF d ∧
      (∀ p ∈ nonVector, ∀ k (hk : k < l.length), (d.get p)[k]? = (c.get p)[l[k]]?) ∧ Consistent d := by
  obtain ⟨d, h1, h2, h3, h4, h5⟩ := subset_spec c (.list (l.map fun (i : ℕ) => (i : ℤ))) (fun v => l.map fun i => v.getD i none) fun p hp =>
    pick_list hl fun i h => by rw [hc p (sub_props hp)]; exact hi i h
  have hN : d.N = l.length := by rw [h3, List.length_map]
  refine ⟨d, h1, hN, fun p hp => ?_, fun p hp k hk => ?_, h5⟩
  · rcases List.mem_cons.1 hp with h | h
    · subst h; rw [h4]; simp
    · rw [h2 p h, List.length_map, hN]
  · have hb : l[k] < (c.get p).length := by rw [hc p (sub_props hp)]; exact hi _ (List.getElem_mem hk)
    rw [h2 p hp]
    simp [List.getElem?_map, hk, List.getD_eq_getElem?_getD, hb]

/-- C119: a slice takes the components from `a` up to but not including `b`. -/
theorem C119_slice (c : Pack) (hc : WF c) (a b : ℕ) (hb : b ≤ c.N) :
    ∃ d, subset c (.slice a b) none = some d ∧ d.N = b - a ∧ WF d ∧ ∀ p ∈ nonVector, ∀ k < b - a, (d.get p)[k]? = (c.get p)[a + k]? := by
  obtain ⟨d, h1, h2, h3, h4, _⟩ := subset_spec c (.slice a b) (fun v => (v.drop a).take (b - a)) fun p _ => rfl
  have hlen : ∀ p ∈ properties, (((c.get p).drop a).take (b - a)).length = b - a := fun p hp => by
    rw [List.length_take, List.length_drop, hc p hp]; omega
  have hN : d.N = b - a := by rw [h3, hlen _ (sub_props mws_mem)]
  refine ⟨d, h1, hN, fun p hp => ?_, fun p hp k hk => ?_⟩
  · rcases List.mem_cons.1 hp with h | h
    · subst h; rw [h4]; simp
    · rw [h2 p h, hlen p hp, hN]
  · rw [h2 p hp, List.getElem?_take]
    simp [hk, List.getElem?_drop]

/-- C119: taking a subset of a subset is taking the composed subset. -/
theorem C119_subset_comp (c d e : Pack) (hc : WF c) (l m : List ℕ) (hl : l ≠ []) (hi : ∀ i ∈ l, i < c.N) (hm : m ≠ []) (hj : ∀ j ∈ m, j < l.length)
    (hd : subset c (.list (l.map fun (i : ℕ) => (i : ℤ))) none = some d) (he : subset d (.list (m.map fun (i : ℕ) => (i : ℤ))) none = some e) :
    ∃ r, subset c (.list ((m.map fun j => l.getD j 0).map fun (i : ℕ) => (i : ℤ))) none = some r ∧ Same e r := by
  have hpi : ∀ i ∈ m.map (fun j => l.getD j 0), i < c.N := by
    intro i h
    simp only [List.mem_map] at h
    obtain ⟨j, hjm, rfl⟩ := h
    have := hj j hjm
    simp only [List.getD_eq_getElem?_getD, List.getElem?_eq_getElem this, Option.getD_some]
    exact hi _ (List.getElem_mem this)
  obtain ⟨d', h1, h2, h3, h4, _⟩ := C119_subset c hc l hl hi
  rw [hd] at h1; cases h1
  obtain ⟨e', k1, k2, k3, k4, _⟩ := C119_subset d h3 m hm (fun j h => by rw [h2]; exact hj j h)
  rw [he] at k1; cases k1
  obtain ⟨r, r1, r2, r3, r4, _⟩ := C119_subset c hc (m.map fun j => l.getD j 0) (by simpa using hm) hpi
  refine ⟨r, r1, fun p hp => ?_⟩
  rcases List.mem_cons.1 hp with h | h
  · subst h
    obtain ⟨e2, q1, q2, q3, q4, _⟩ := subset_spec d (.list (m.map fun (i : ℕ) => (i : ℤ))) (fun v => m.map fun i => v.getD i none) fun p hp =>
      pick_list hm fun i h => by rw [h3 p (sub_props hp), h2]; exact hj i h
    obtain ⟨r', s1, s2, s3, s4, _⟩ := subset_spec c (.list ((m.map fun j => l.getD j 0).map fun (i : ℕ) => (i : ℤ)))
      (fun v => (m.map fun j => l.getD j 0).map fun i => v.getD i none) fun p hp => pick_list (by simpa using hm) fun i h => by rw [hc p (sub_props hp)]; exact hpi i h
    rw [he] at q1; cases q1
    rw [r1] at s1; cases s1
    rw [q4, s4, k2, r2, List.length_map]
  · apply List.ext_getElem?
    intro k
    by_cases hk : k < m.length
    · have hmk : m[k] < l.length := hj _ (List.getElem_mem hk)
      rw [k4 p h k hk, h4 p h _ hmk, r4 p h k (by simpa using hk)]
      simp [List.getD_eq_getElem?_getD, hmk]
    · rw [List.getElem?_eq_none (by rw [k3 p hp, k2]; omega), List.getElem?_eq_none (by rw [r3 p hp, r2, List.length_map]; omega)]

/-- C119: the first components of a sum are the first summand and the rest the second, as far as the copied attributes go. -/
theorem C119_add_subset (a b c : Pack) (ha : WF a) (hb : WF b) (h : add a b = some c) :
    ∃ x y, subset c (.slice 0 a.N) none = some x ∧ subset c (.slice a.N (a.N + b.N)) none = some y ∧
      (∀ p ∈ nonVector, x.get p = a.get p ∧ y.get p = b.get p) ∧ x.N = a.N ∧ y.N = b.N := by
  obtain ⟨c', hc, hg, hN, _⟩ := add_spec a b
  rw [h] at hc; cases hc
  obtain ⟨x, x1, x2, x3, _⟩ := subset_spec c (.slice 0 a.N) (fun v => (v.drop 0).take (a.N - 0)) fun p _ => rfl
  obtain ⟨y, y1, y2, y3, _⟩ := subset_spec c (.slice a.N (a.N + b.N)) (fun v => (v.drop a.N).take (a.N + b.N - a.N)) fun p _ => rfl
  have hx : ∀ p ∈ nonVector, x.get p = a.get p := fun p hp => by
    rw [x2 p hp, hg p (sub_props hp)]
    simp [← ha p (sub_props hp)]
  have hy : ∀ p ∈ nonVector, y.get p = b.get p := fun p hp => by
    have e1 : a.N + b.N - a.N = (b.get p).length := by rw [hb p (sub_props hp)]; omega
    rw [y2 p hp, hg p (sub_props hp), e1, ← ha p (sub_props hp)]
    simp
  refine ⟨x, y, x1, y1, fun p hp => ⟨hx p hp, hy p hp⟩, ?_, ?_⟩
  · have := x2 _ mws_mem
    rw [x3, ← this, hx _ mws_mem, ha _ (sub_props mws_mem)]
  · have := y2 _ mws_mem
    rw [y3, ← this, hy _ mws_mem, hb _ (sub_props mws_mem)]

/-- C119: `subset()` keeps everything except the atom fractions. -/
theorem C119_subset_all_partial (c : Pack) (hc : WF c) (hN : c.N ≠ 0) :
    ∃ d, subset c .all none = some d ∧ d.N = c.N ∧ (∀ p ∈ nonVector, d.get p = c.get p) ∧ d.get "atom_fractions" = List.replicate c.N none := by
  obtain ⟨d, h1, h2, h3, h4, _⟩ := subset_spec c .all id fun p hp => pick_all hN (hc p (sub_props hp))
  have : d.N = c.N := by rw [h3]; exact hc _ (sub_props mws_mem)
  exact ⟨d, h1, this, h2, by rw [h4, this]⟩

/-- A package with atom fractions. -/
def demo : Pack := (init wEthanol).get (by rfl)

theorem demo_init : init wEthanol = some demo := (Option.some_get _).symm

theorem demo_wf : WF demo ∧ demo.N = 2 :=
  C119_wf wEthanol demo demo_init 2 (by
    intro p v h
    have := lookup_mem h
    simp only [wEthanol, List.mem_cons, Prod.mk.injEq, List.not_mem_nil, or_false] at this
    rcases this with h | h | h | h | h <;> rw [h.2] <;> rfl)

example : ∃ d, subset demo (.list ([1, 0, 1].map fun (i : ℕ) => (i : ℤ))) none = some d ∧ d.N = 3 ∧ WF d := by
  obtain ⟨d, h1, h2, h3, _⟩ := C119_subset demo demo_wf.1 [1, 0, 1] (by decide) (by rw [demo_wf.2]; decide)
  exact ⟨d, h1, h2, h3⟩

example : ∃ c, add demo demo = some c ∧ c.N = 4 ∧ WF c := by
  obtain ⟨_, _, h⟩ := (C119_init wEthanol).2 demo demo_init
  have hc := h.2
  obtain ⟨c, h1, h2, h3, _⟩ := C119_add demo demo demo_wf.1 demo_wf.1 hc hc
  exact ⟨c, h1, by rw [h2, demo_wf.2], h3⟩

/-- C119 (`_fails`): the documentation says that all properties are included when none are named and all components when `idxs` is `None`; the result is nevertheless
another object, because the atom fractions are lost. -/
theorem C119_subset_identity_fails : ∃ c d, WF c ∧ subset c .all none = some d ∧ ¬ Same d c := by
  obtain ⟨d, h1, _, _, h4⟩ := C119_subset_all_partial demo demo_wf.1 (by rw [demo_wf.2]; decide)
  refine ⟨demo, d, demo_wf.1, h1, fun h => ?_⟩
  have := h "atom_fractions" (by decide +kernel)
  rw [h4, demo_wf.2] at this
  exact absurd this (by decide +kernel)

/-- C119 (`_fails`): removing the second summand from a sum does not give back the first. -/
theorem C119_add_subset_fails : ∃ a b c x, WF a ∧ WF b ∧ add a b = some c ∧ subset c (.slice 0 a.N) none = some x ∧ ¬ Same x a := by
  obtain ⟨c, hc, _⟩ := add_spec demo demo
  obtain ⟨x, x1, _, x3, x4, _⟩ := subset_spec c (.slice 0 demo.N) (fun v => (v.drop 0).take (demo.N - 0)) fun p _ => rfl
  refine ⟨demo, demo, c, x, demo_wf.1, demo_wf.1, hc, x1, fun h => ?_⟩
  have := h "atom_fractions" (by decide +kernel)
  have h2 : demo.get "atom_fractions" = [some (.atoms [("H", 1)]), some (.atoms [("O", 1)])] := rfl
  rw [x4, h2] at this
  cases hn : x.N with
  | zero => rw [hn] at this; simp at this
  | succ n => rw [hn, List.replicate_succ] at this; simp at this

/-- C119 (`_fails`): an empty list of components is an `IndexError`, an empty slice is not. -/
theorem C119_empty_fails (c : Pack) (hc : WF c) : subset c (.list []) none = none ∧ ∃ d, subset c (.slice 0 0) none = some d ∧ d.N = 0 := by
  constructor
  · have : collect (fun p => if p ∈ properties then pick c.N (.list []) (c.get p) else none) nonVector = none := by
      rw [nonVector]
      simp [collect, pick]
    simp [subset, this]
  · obtain ⟨d, h1, h2, _⟩ := C119_slice c hc 0 0 (Nat.zero_le _)
    exact ⟨d, h1, h2⟩

/-- C119: named properties: those asked for and the molecular weights are copied and all others are empty; atom fractions are kept when they are named. -/
theorem C119_subset_named (c : Pack) (hc : WF c) (hN : c.N ≠ 0) (ps : List String) (hp : ∀ p ∈ ps, p ∈ properties) :
    ∃ d, subset c .all (some ps) = some d ∧ d.N = c.N ∧ (∀ p ∈ ps, d.get p = c.get p) ∧ d.get "MWs" = c.get "MWs" ∧
      ∀ p, p ∉ ps → p ≠ "MWs" → d.get p = List.replicate c.N none := by
  obtain ⟨qs, hqs, hsub, hin, hmw⟩ : ∃ qs, (if "MWs" ∈ ps then ps else ps ++ ["MWs"]) = qs ∧ (∀ p ∈ qs, p ∈ ps ∨ p = "MWs") ∧ (∀ p ∈ ps, p ∈ qs) ∧ "MWs" ∈ qs := by
    refine ⟨_, rfl, ?_, ?_, ?_⟩ <;> split_ifs with h
    · exact fun p hp => Or.inl hp
    · intro p hp; simpa using hp
    · exact fun p hp => hp
    · intro p hp; simp [hp]
    · exact h
    · simp
  have hall : ∀ p ∈ qs, p ∈ properties := fun p h => by
    rcases hsub p h with h | h
    · exact hp p h
    · rw [h]; exact sub_props mws_mem
  have hf : ∀ p ∈ qs, (if p ∈ properties then pick c.N .all (c.get p) else none) = some (c.get p) := fun p h => by
    rw [if_pos (hall p h), pick_all hN (hc p (hall p h))]
  obtain ⟨kw, hkw⟩ := Option.isSome_iff_exists.1 (collect_isSome (f := fun p => if p ∈ properties then pick c.N .all (c.get p) else none) (ps := qs)
    fun p h => by rw [hf p h]; rfl)
  obtain ⟨h1, h2, h3⟩ := collect_spec hkw
  have hm : kw.lookup "MWs" = some (c.get "MWs") := by rw [(h1 _ hmw).1, hf _ hmw]
  obtain ⟨d, hd⟩ := Option.isSome_iff_exists.1 (init_isSome (fun e he => hall _ (h3 e he)) hm)
  obtain ⟨_, ms, k2, k3, k4, _⟩ := init_spec hd
  rw [hm] at k2
  simp only [Option.some.injEq] at k2
  have hdN : d.N = c.N := by rw [k3, ← k2, hc _ (sub_props mws_mem)]
  refine ⟨d, ?_, hdN, fun p h => ?_, ?_, fun p h hne => ?_⟩
  · simp only [subset]
    rw [hqs, hkw]; exact hd
  · rw [k4, (h1 p (hin p h)).1, hf p (hin p h)]; rfl
  · rw [k4, hm]; rfl
  · have : p ∉ qs := fun hq => by
      rcases hsub p hq with h' | h'
      · exact h h'
      · exact hne h'
    rw [k4, h2 p this, ← hdN, k3]; rfl

example : ∃ d, subset demo .all (some ["names", "atom_fractions"]) = some d ∧ d.get "atom_fractions" = demo.get "atom_fractions" ∧ d.get "CASs" = [none, none] := by
  obtain ⟨d, h1, _, h3, _, h5⟩ := C119_subset_named demo demo_wf.1 (by rw [demo_wf.2]; decide) ["names", "atom_fractions"] (by decide +kernel)
  exact ⟨d, h1, h3 _ (by decide), by rw [h5 _ (by decide) (by decide), demo_wf.2]; rfl⟩

/-! ## Replacement -/

/-- C119: `with_new_constants` takes the named properties from its arguments and the others, except the atom fractions, from the object. -/
theorem C119_with_new_partial (c : Pack) (kw : Kw) (hk : ∀ e ∈ kw, e.1 ∈ properties) :
    ∃ d, withNew c kw = some d ∧ (∀ p v, kw.lookup p = some v → d.get p = v) ∧ (∀ p ∈ nonVector, kw.lookup p = none → d.get p = c.get p) ∧
      (kw.lookup "atom_fractions" = none → d.get "atom_fractions" = List.replicate d.N none) ∧ d.N = (d.get "MWs").length := by
  have hall : ∀ e ∈ kw ++ nonVector.map (fun p => (p, c.get p)), e.1 ∈ properties := by
    intro e he
    rcases List.mem_append.1 he with h | h
    · exact hk e h
    · simp only [List.mem_map] at h
      obtain ⟨p, hp, rfl⟩ := h
      exact sub_props hp
  have hlook : ∀ p ∈ nonVector, kw.lookup p = none → (kw ++ nonVector.map (fun p => (p, c.get p))).lookup p = some (c.get p) := fun p hp h => by
    rw [lookup_append, h, lookup_map hp]; rfl
  obtain ⟨ms, hms⟩ : ∃ ms, (kw ++ nonVector.map (fun p => (p, c.get p))).lookup "MWs" = some ms := by
    cases h : kw.lookup "MWs" with
    | none => exact ⟨_, hlook _ mws_mem h⟩
    | some v => exact ⟨v, by rw [lookup_append, h]; rfl⟩
  obtain ⟨d, hd⟩ := Option.isSome_iff_exists.1 (init_isSome hall hms)
  obtain ⟨h1, h2⟩ := (C119_init _).2 d hd
  refine ⟨d, hd, fun p v h => h1 p v (by rw [lookup_append, h]; rfl), fun p hp h => h1 p _ (hlook p hp h), fun h => h2.1 _ ?_, h2.2.1⟩
  rw [lookup_append, h, lookup_map_none af_not]; rfl

example : ∃ d, withNew demo [("Tms", [some (.num 40), some (.num 20)])] = some d ∧ d.get "Tms" = [some (.num 40), some (.num 20)] ∧ d.get "names" = demo.get "names" := by
  obtain ⟨d, h1, h2, h3, _⟩ := C119_with_new_partial demo [("Tms", [some (.num 40), some (.num 20)])] (by decide +kernel)
  exact ⟨d, h1, h2 _ _ (by decide +kernel), h3 _ (by decide +kernel) (by decide +kernel)⟩

/-- C119 (`_fails`): replacing nothing does not give an equal object: the atom fractions disappear. -/
theorem C119_with_new_fails : ∃ c d, WF c ∧ withNew c [] = some d ∧ ¬ Same d c := by
  obtain ⟨d, h1, _, h3, h4, h5⟩ := C119_with_new_partial demo [] (by simp)
  refine ⟨demo, d, demo_wf.1, h1, fun h => ?_⟩
  have := h "atom_fractions" (by decide +kernel)
  rw [h4 rfl, h5, h3 _ mws_mem rfl] at this
  exact absurd this (by decide +kernel)

/-! ## Lookup -/

theorem dictFrom_spec : ∀ (l : List Cell) (k : ℕ) (d : Cell → Option ℕ) (x : Cell) (i : ℕ),
    dictFrom k l d x = some i ↔ (∃ j, i = k + j ∧ l[j]? = some x ∧ ∀ m, j < m → l[m]? ≠ some x) ∨ (x ∉ l ∧ d x = some i)
  | [], k, d, x, i => by simp [dictFrom]
  | a :: l, k, d, x, i => by
    rw [dictFrom, dictFrom_spec l (k + 1)]
    constructor
    · rintro (⟨j, rfl, h1, h2⟩ | ⟨h1, h2⟩)
      · refine Or.inl ⟨j + 1, by omega, by simpa using h1, fun m hm => ?_⟩
        cases m with
        | zero => omega
        | succ m => simpa using h2 m (by omega)
      · by_cases e : x = a
        · subst e
          rw [Function.update_self] at h2
          refine Or.inl ⟨0, by simpa using h2.symm, by simp, fun m hm => ?_⟩
          cases m with
          | zero => omega
          | succ m => intro h; exact h1 (List.mem_of_getElem? (by simpa using h))
        · rw [Function.update_of_ne e] at h2
          exact Or.inr ⟨by simp [e, h1], h2⟩
    · rintro (⟨j, rfl, h1, h2⟩ | ⟨h1, h2⟩)
      · cases j with
        | zero =>
          have e : a = x := by simpa using h1
          subst e
          refine Or.inr ⟨fun hm => ?_, by simp⟩
          obtain ⟨m, hm'⟩ := List.mem_iff_getElem?.1 hm
          exact h2 (m + 1) (by omega) (by simpa using hm')
        | succ j =>
          exact Or.inl ⟨j, by omega, by simpa using h1, fun m hm => by simpa using h2 (m + 1) (by omega)⟩
      · simp only [List.mem_cons, not_or] at h1
        exact Or.inr ⟨h1.2, by rw [Function.update_of_ne h1.1]; exact h2⟩

theorem firstIdx_spec (l : List Cell) (x : Cell) (i : ℕ) : firstIdx l x = some i ↔ l[i]? = some x ∧ ∀ m < i, l[m]? ≠ some x := by
  unfold firstIdx
  constructor
  · intro h
    split_ifs at h with hx
    simp only [Option.some.injEq] at h
    subst h
    refine ⟨by rw [List.getElem?_eq_getElem (List.idxOf_lt_length_iff.2 hx), List.getElem_idxOf], fun m hm hh => ?_⟩
    obtain ⟨hl, e⟩ := List.getElem?_eq_some_iff.1 hh
    have := idxOf_le hh
    omega
  · rintro ⟨h1, h2⟩
    have hx : x ∈ l := List.mem_of_getElem? h1
    rw [if_pos hx]
    congr 1
    have hlt := List.idxOf_lt_length_iff.2 hx
    have e : l[l.idxOf x]? = some x := by rw [List.getElem?_eq_getElem hlt, List.getElem_idxOf]
    by_contra hne
    rcases Nat.lt_or_gt_of_ne hne with h | h
    · exact h2 _ h e
    · obtain ⟨hl, e'⟩ := List.getElem?_eq_some_iff.1 h1
      have := idxOf_le h1
      omega

/-- C119: the index found holds the identifier asked for: for CAS numbers the last such component, for the others the first. The CAS number goes before the name, and
nothing is found only if the identifier is absent. -/
theorem C119_index (c : Pack) (q : Ident) :
    (∀ i, q.CAS ≠ none → (compoundIndex c q = .ok i ↔ (c.get "CASs")[i]? = some q.CAS ∧ ∀ m > i, (c.get "CASs")[m]? ≠ some q.CAS)) ∧
    (∀ i, q.CAS = none → q.name ≠ none → (compoundIndex c q = .ok i ↔ (c.get "names")[i]? = some q.name ∧ ∀ m < i, (c.get "names")[m]? ≠ some q.name)) ∧
    (q.CAS ≠ none → (compoundIndex c q = .error .key ↔ q.CAS ∉ c.get "CASs")) ∧
    (q.CAS = none → q.name ≠ none → (compoundIndex c q = .error .value ↔ q.name ∉ c.get "names")) := by
  have hd : ∀ i, dictFrom 0 (c.get "CASs") (fun _ => none) q.CAS = some i ↔
      ((c.get "CASs")[i]? = some q.CAS ∧ ∀ m > i, (c.get "CASs")[m]? ≠ some q.CAS) := fun i => by
    rw [dictFrom_spec]
    constructor
    · rintro (⟨j, h, h1, h2⟩ | ⟨_, h⟩)
      · rw [Nat.zero_add] at h; subst h; exact ⟨h1, h2⟩
      · simp at h
    · rintro ⟨h1, h2⟩
      exact Or.inl ⟨i, by omega, h1, h2⟩
  refine ⟨fun i h => ?_, fun i h h' => ?_, fun h => ?_, fun h h' => ?_⟩
  · rw [← hd]
    unfold compoundIndex
    rw [if_pos h]
    cases dictFrom 0 (c.get "CASs") (fun _ => none) q.CAS <;> simp
  · rw [← firstIdx_spec]
    unfold compoundIndex indexIn
    rw [if_neg (by simp [h]), if_pos h']
    cases firstIdx (c.get "names") q.name <;> simp
  · unfold compoundIndex
    rw [if_pos h]
    constructor
    · intro he hm
      have hex : ∃ i : ℕ, (c.get "CASs")[i]? = some q.CAS ∧ ∀ m > i, (c.get "CASs")[m]? ≠ some q.CAS := by
        obtain ⟨i, hi⟩ := List.mem_iff_getElem?.1 hm
        have hP : ∃ n ≤ (c.get "CASs").length, (c.get "CASs")[n]? = some q.CAS :=
          ⟨i, (List.getElem?_eq_some_iff.1 hi).1.le, hi⟩
        refine ⟨Nat.findGreatest (fun n => (c.get "CASs")[n]? = some q.CAS) (c.get "CASs").length, ?_, fun m hmg hh => ?_⟩
        · exact Nat.findGreatest_spec (P := fun n => (c.get "CASs")[n]? = some q.CAS) hP.choose_spec.1 hP.choose_spec.2
        · exact Nat.findGreatest_is_greatest hmg (List.getElem?_eq_some_iff.1 hh).1.le hh
      obtain ⟨i, hi⟩ := hex
      rw [(hd i).2 hi] at he
      simp at he
    · intro hm
      cases hv : dictFrom 0 (c.get "CASs") (fun _ => none) q.CAS with
      | none => rfl
      | some i => exact absurd (List.mem_of_getElem? ((hd i).1 hv).1) hm
  · unfold compoundIndex indexIn firstIdx
    rw [if_neg (by simp [h]), if_pos h']
    by_cases hm : q.name ∈ c.get "names" <;> simp [hm]

/-- C119: the order in which the other identifiers are looked at. -/
theorem C119_index_order (c : Pack) (q : Ident) (h1 : q.CAS = none) (h2 : q.name = none) :
    compoundIndex c q =
      if q.smiles ≠ none then indexIn (c.get "smiless") q.smiles
      else if q.inchi ≠ none then indexIn (c.get "InChIs") q.inchi
      else if q.key ≠ none then indexIn (c.get "InChI_Keys") q.key
      else if q.pub ≠ none then indexIn (c.get "PubChems") q.pub else .error .value := by
  unfold compoundIndex
  rw [if_neg (by simp [h1]), if_neg (by simp [h2])]

example : compoundIndex demo ⟨some (.str "7732-18-5"), none, none, none, none, none⟩ = .ok 1 ∧
    compoundIndex demo ⟨none, some (.str "x"), none, none, none, none⟩ = .ok 0 := by
  constructor
  · exact ((C119_index demo _).1 1 (by decide)).2 ⟨rfl, fun m hm hh => by
      have := (List.getElem?_eq_some_iff.1 hh).1
      rw [demo_wf.1 "CASs" (by decide +kernel), demo_wf.2] at this
      omega⟩
  · exact ((C119_index demo _).2.1 0 rfl (by decide)).2 ⟨rfl, by omega⟩

/-- C119 (`_fails`): the documentation promises `IndexError` for identifiers that are not found; a CAS number raises `KeyError` and a name `ValueError`, which is also
what a call without any identifier raises. And in a package with a component twice the CAS number and the name lead to different components. -/
theorem C119_index_fails :
    compoundIndex demo ⟨some (.str "50-00-0"), none, none, none, none, none⟩ = .error .key ∧
    compoundIndex demo ⟨none, some (.str "y"), none, none, none, none⟩ = .error .value ∧
    compoundIndex demo ⟨none, none, none, none, none, none⟩ = .error .value ∧
    ∃ c, add demo demo = some c ∧ compoundIndex c ⟨some (.str "64-17-5"), none, none, none, none, none⟩ = .ok 2 ∧
      compoundIndex c ⟨none, some (.str "x"), none, none, none, none⟩ = .ok 0 := by
  refine ⟨((C119_index demo _).2.2.1 (by decide)).2 (by decide +kernel), ((C119_index demo _).2.2.2 rfl (by decide)).2 (by decide +kernel), rfl, ?_⟩
  obtain ⟨c, h, hg, _⟩ := add_spec demo demo
  have hC : c.get "CASs" = [some (.str "64-17-5"), some (.str "7732-18-5"), some (.str "64-17-5"), some (.str "7732-18-5")] := hg _ (by decide +kernel)
  have hn : c.get "names" = [some (.str "x"), some (.str "water"), some (.str "x"), some (.str "water")] := hg _ (by decide +kernel)
  refine ⟨c, h, ((C119_index c _).1 2 (by decide)).2 ?_, ((C119_index c _).2.1 0 rfl (by decide)).2 ?_⟩
  · rw [hC]
    refine ⟨rfl, fun m hm hh => ?_⟩
    have := (List.getElem?_eq_some_iff.1 hh).1
    have h4 : m < 4 := this
    have : m = 3 := by omega
    subst this
    simp at hh
  · rw [hn]
    exact ⟨rfl, by omega⟩

/-! ## JSON -/

/-- What the documentation says is held in the attributes: group counts with integer keys, sets of functional groups, exposure limits as tuples, and otherwise numbers,
strings and dictionaries by element. -/
def Typed (p : String) : Val → Prop
  | .num _ => p ∉ groupNames
  | .str _ => p ∉ groupNames
  | .atoms _ => p ∉ groupNames
  | .groups _ => p ∈ groupNames
  | .tup _ _ => p = "TWAs" ∨ p = "STELs"
  | .fset _ => p = "functional_groups"
  | _ => False

theorem cell_round (k : Codec) (hk : k.Ok) (p : String) (v : Val) (h : Typed p v) : (wire k (encCell k p v)).map (decCell k p) = some v := by
  have g1 : "functional_groups" ∉ groupNames := by decide
  have g2 : "TWAs" ∉ groupNames := by decide
  have g3 : "STELs" ∉ groupNames := by decide
  cases v with
  | num q =>
    have h : p ∉ groupNames := h
    simp only [encCell, decCell, if_neg h]
    split_ifs <;> rfl
  | str q =>
    have h : p ∉ groupNames := h
    simp only [encCell, decCell, if_neg h]
    split_ifs <;> rfl
  | atoms q =>
    have h : p ∉ groupNames := h
    simp only [encCell, decCell, if_neg h]
    split_ifs <;> rfl
  | groups g =>
    have h : p ∈ groupNames := h
    simp only [encCell, decCell, if_pos h, strKeys, wire, Option.map_some, intKeys, List.map_map, Option.some.injEq, Val.groups.injEq]
    conv_rhs => rw [← List.map_id g]
    apply List.map_congr_left
    intro e _
    simp [hk.1]
  | tup q u =>
    have h : p = "TWAs" ∨ p = "STELs" := h
    have hn : p ∉ groupNames := by rcases h with h | h <;> rw [h] <;> assumption
    have hf : p ≠ "functional_groups" := by rcases h with h | h <;> rw [h] <;> decide
    simp [encCell, decCell, if_neg hn, if_neg hf, if_pos h, wire, toTuple]
  | fset s =>
    have h : p = "functional_groups" := h
    subst h
    simp [encCell, decCell, if_neg g1, wire, setToList, listToSet, hk.2]
  | groupsS _ => exact absurd h (by simp [Typed])
  | lst _ _ => exact absurd h (by simp [Typed])
  | flist _ => exact absurd h (by simp [Typed])

/-- C119: a package whose attributes have the documented types comes back from its JSON text with the same attributes. -/
theorem C119_json (k : Codec) (hk : k.Ok) (c : Pack) (h : ∀ p ∈ properties, ∀ v, some v ∈ c.get p → Typed p v) (p : String) (hp : p ∈ properties) :
    roundTrip k c p = some (c.get p) := by
  unfold roundTrip asJson
  by_cases hq : p = "atom_fractions" ∨ c.get p ≠ List.replicate c.N none
  · have hm : p ∈ properties.filter fun p => decide (p = "atom_fractions" ∨ c.get p ≠ List.replicate c.N none) := List.mem_filter.2 ⟨hp, by simpa using hq⟩
    rw [lookup_map (f := fun p => (c.get p).map (Option.map (encCell k p))) hm]
    have key : ∀ l : List Cell, (∀ v, some v ∈ l → Typed p v) →
        ((wireList k (l.map (Option.map (encCell k p)))).map fun l => l.map (Option.map (decCell k p))) = some l := by
      intro l
      induction l with
      | nil => intro _; rfl
      | cons a l ih =>
        intro hl
        have ih' := ih fun v hv => hl v (List.mem_cons_of_mem _ hv)
        unfold wireList at ih' ⊢
        rw [List.map_cons, List.mapM_cons]
        cases a with
        | none =>
          cases hr : (l.map (Option.map (encCell k p))).mapM (wireCell k) with
          | none => rw [hr] at ih'; simp at ih'
          | some r =>
            rw [hr] at ih'
            simp only [Option.map_some, Option.some.injEq] at ih'
            simp [ih', wireCell]
        | some v =>
          have hv := cell_round k hk p v (hl v (by simp))
          cases hw : wire k (encCell k p v) with
          | none => rw [hw] at hv; simp at hv
          | some w =>
            rw [hw] at hv
            simp only [Option.map_some, Option.some.injEq] at hv
            cases hr : (l.map (Option.map (encCell k p))).mapM (wireCell k) with
            | none => rw [hr] at ih'; simp at ih'
            | some r =>
              rw [hr] at ih'
              simp only [Option.map_some, Option.some.injEq] at ih'
              simp [ih', hw, hv, wireCell]
    exact key _ (h p hp)
  · have hm : p ∉ properties.filter fun p => decide (p = "atom_fractions" ∨ c.get p ≠ List.replicate c.N none) := fun hm =>
      hq (by simpa using (List.mem_filter.1 hm).2)
    rw [lookup_map_none (f := fun p => (c.get p).map (Option.map (encCell k p))) hm]
    push Not at hq
    rw [hq.2]

/-- Package with group counts, functional groups, exposure limits. -/
def safety : Kw :=
  [("MWs", [some (.num 18)]), ("UNIFAC_groups", [some (.groups [(16, 1)])]), ("functional_groups", [some (.fset {"water"})]), ("TWAs", [some (.tup 5 "ppm")])]

example (k : Codec) (hk : k.Ok) : ∃ c, init safety = some c ∧ roundTrip k c "UNIFAC_groups" = some [some (.groups [(16, 1)])] ∧
    roundTrip k c "functional_groups" = some [some (.fset {"water"})] ∧ roundTrip k c "TWAs" = some [some (.tup 5 "ppm")] := by
  obtain ⟨c, hc⟩ := Option.isSome_iff_exists.1 (show (init safety).isSome from rfl)
  obtain ⟨_, ms, h2, _, h4, _⟩ := init_spec hc
  have ht : ∀ p ∈ properties, ∀ v, some v ∈ c.get p → Typed p v := by
    intro p _ v hv
    rw [h4] at hv
    cases hl : safety.lookup p with
    | none => rw [hl] at hv; simp at hv
    | some l =>
      rw [hl] at hv
      have hm := lookup_mem hl
      simp only [safety, List.mem_cons, Prod.mk.injEq, List.not_mem_nil, or_false] at hm
      rcases hm with h | h | h | h <;> obtain ⟨rfl, rfl⟩ := h <;> simp at hv <;> subst hv <;> simp [Typed, groupNames]
  exact ⟨c, hc, (C119_json k hk c ht _ (by decide +kernel)).trans (by rw [h4]; rfl), (C119_json k hk c ht _ (by decide +kernel)).trans (by rw [h4]; rfl),
    (C119_json k hk c ht _ (by decide +kernel)).trans (by rw [h4]; rfl)⟩

/-- C119 (`_fails`): ceiling limits, documented as tuples like the other exposure limits, come back as lists. -/
theorem C119_json_fails (k : Codec) : ∃ kw c, init kw = some c ∧ c.get "Ceilings" = [some (.tup 5 "ppm")] ∧ roundTrip k c "Ceilings" = some [some (.lst 5 "ppm")] := by
  obtain ⟨c, hc⟩ := Option.isSome_iff_exists.1 (show (init [("MWs", [some (.num 18)]), ("Ceilings", [some (.tup 5 "ppm")])]).isSome from rfl)
  obtain ⟨_, ms, _, h3, h4, _⟩ := init_spec hc
  have hg : c.get "Ceilings" = [some (.tup 5 "ppm")] := by rw [h4]; rfl
  refine ⟨_, c, hc, hg, ?_⟩
  unfold roundTrip asJson
  have hm : "Ceilings" ∈ properties.filter fun p => decide (p = "atom_fractions" ∨ c.get p ≠ List.replicate c.N none) := by
    refine List.mem_filter.2 ⟨by decide +kernel, ?_⟩
    rw [hg]
    cases c.N with
    | zero => simp
    | succ n => simp [List.replicate_succ]
  rw [lookup_map (f := fun p => (c.get p).map (Option.map (encCell k p))) hm, hg]
  rfl

/-! ## Derived constants of `_from_IDs` -/

inductive Ph | g | l | s
  deriving DecidableEq

/-- An element of the formula: enthalpy and entropy of the element as tabulated, atoms in the molecule, and whether the element is diatomic. -/
structure Elem where
  (H S : Option ℚ) (n : ℚ) (homo : Bool)

/-- Data of one component: what the tables and the correlations give. -/
structure Raw where
  (MW : ℚ) (Tc Pc Vc Hfus HvTb Hv298 Vmg Vl Vl60 Vs Hfg Hfl Hfs S0g Hsub : Option ℚ) (phase : Option Ph) (els : List Elem) (nH2O : ℚ)

/-- `x*1000.0/MW if x is not None else None` (178, 186, 189, 242, 251, 289, 293, 316, 326, 329). -/
def mass (MW : ℚ) (x : Option ℚ) : Option ℚ := x.map fun x => x * 1000 / MW
/-- `1.0/V if V is not None else None` (213, 231, 232, 238). -/
def rho (V : Option ℚ) : Option ℚ := V.map fun V => 1 / V
/-- `1e-3*MW/V if V is not None else None` (214, 233, 234, 239). -/
def rhoMass (MW : ℚ) (V : Option ℚ) : Option ℚ := V.map fun V => 1 / 1000 * MW / V
/-- Lines 174-175: `if Vc`, so that zero counts as missing. -/
def truthy (V : Option ℚ) : Option ℚ := V.bind fun v => if v = 0 then none else some v

/-- Lines 155-160: missing data and a division by zero are swallowed. -/
def Zc (R : ℚ) (r : Raw) : Option ℚ :=
  match r.Vc, r.Pc, r.Tc with
  | some V, some P, some T => if R * T = 0 then none else some (V * P / (R * T))
  | _, _, _ => none

/-- Lines 253-263. -/
def HfSTP (r : Raw) : Option ℚ × Option ℚ :=
  match r.phase with
  | some .g => (r.Hfg, mass r.MW r.Hfg)
  | some .l => (r.Hfl, mass r.MW r.Hfl)
  | some .s => (r.Hfs, mass r.MW r.Hfs)
  | none => (none, none)

/-- Lines 273-279: half of the molecule for diatomic elements. -/
def elemHS (e : Elem) : Option ℚ × Option ℚ :=
  if e.homo then (e.H.map fun x => 1 / 2 * x, e.S.map fun x => 1 / 2 * x) else (e.H, e.S)

/-- `Gibbs_formation` of `chemicals`: enthalpy and entropy less those of the elements; missing values are swallowed (285-288). -/
def Gfg (r : Raw) : Option ℚ :=
  match r.Hfg, r.S0g, r.els.mapM (fun e => match elemHS e with | (some h, some s) => some (h * e.n, s * e.n) | _ => none) with
  | some H, some S, some l => some ((H - (l.map (·.1)).sum) - 29815 / 100 * (S - (l.map (·.2)).sum))
  | _, _, _ => none

/-- Lines 291-292. -/
def Sfg (r : Raw) : Option ℚ :=
  match r.Hfg, Gfg r with
  | some H, some G => some ((H - G) * (1 / (29815 / 100)))
  | _, _ => none

/-- Lines 320-325: `hhv` is `HHV_stoichiometry` of the combustion reaction, which may fail. -/
def Hc (hhv : ℚ → Option ℚ) (r : Raw) : Option ℚ := (HfSTP r).1.bind hhv

/-- Lines 327-328: `LHV_from_HHV` adds the vaporization of the water formed. -/
def HcLower (hhv : ℚ → Option ℚ) (r : Raw) : Option ℚ := (Hc hhv r).map fun h => h + 44011496 / 1000 * r.nH2O

/-- C119: values for a mass are the molar ones divided by the molar mass, present together with them; densities are inverse volumes, and mass densities are mass over
volume. -/
theorem C119_mass (MW : ℚ) (h : MW ≠ 0) (x : Option ℚ) :
    ((mass MW x = none ↔ x = none) ∧ ∀ a b, x = some a → mass MW x = some b → b * (MW / 1000) = a) ∧
    ((rho x = none ↔ x = none) ∧ ∀ v d, x = some v → v ≠ 0 → rho x = some d → d * v = 1) ∧
    ∀ v d m, x = some v → rho x = some d → rhoMass MW x = some m → m = d * (MW / 1000) := by
  refine ⟨⟨by simp [mass], fun a b ha hb => ?_⟩, ⟨by simp [rho], fun v d hv h0 hd => ?_⟩, fun v d m hv hd hm => ?_⟩
  · subst ha; simp only [mass, Option.map_some, Option.some.injEq] at hb; subst hb; field_simp
  · subst hv; simp only [rho, Option.map_some, Option.some.injEq] at hd; subst hd; field_simp
  · subst hv
    simp only [rho, rhoMass, Option.map_some, Option.some.injEq] at hd hm
    subst hd; subst hm; ring

/-- C119: the critical compressibility factor is given exactly when volume, pressure and a temperature that is not zero are, and is `P V / (R T)`; the critical densities
are missing for a volume of zero. -/
theorem C119_critical (R : ℚ) (hR : R ≠ 0) (r : Raw) :
    (∀ z, Zc R r = some z ↔ ∃ V P T, r.Vc = some V ∧ r.Pc = some P ∧ r.Tc = some T ∧ T ≠ 0 ∧ z * (R * T) = P * V) ∧
    ∀ d, rho (truthy r.Vc) = some d ↔ ∃ V, r.Vc = some V ∧ V ≠ 0 ∧ d = 1 / V := by
  constructor
  · intro z
    unfold Zc
    constructor
    · intro h
      split at h
      · rename_i V P T h1 h2 h3
        split_ifs at h with h0
        simp only [Option.some.injEq] at h
        refine ⟨V, P, T, h1, h2, h3, fun hT => h0 (by rw [hT, mul_zero]), ?_⟩
        rw [← h, div_mul_cancel₀ _ h0, mul_comm]
      · simp at h
    · rintro ⟨V, P, T, h1, h2, h3, hT, hz⟩
      rw [h1, h2, h3]
      have : R * T ≠ 0 := mul_ne_zero hR hT
      simp only [if_neg this, Option.some.injEq]
      rw [div_eq_iff this, hz, mul_comm]
  · intro d
    cases hV : r.Vc with
    | none => simp [truthy, rho]
    | some V =>
      by_cases h : V = 0
      · simp [truthy, rho, h]
      · simp [truthy, rho, h, eq_comm]

/-- C119: the standard enthalpy of formation is that of the standard phase, and the heat of combustion comes from it: without a standard phase there is neither. The lower
heating value differs by the water formed. -/
theorem C119_standard (hhv : ℚ → Option ℚ) (r : Raw) :
    (r.phase = some .g → (HfSTP r).1 = r.Hfg) ∧ (r.phase = some .l → (HfSTP r).1 = r.Hfl) ∧ (r.phase = some .s → (HfSTP r).1 = r.Hfs) ∧
    (r.phase = none → (HfSTP r).1 = none ∧ Hc hhv r = none) ∧ (HfSTP r).2 = mass r.MW (HfSTP r).1 ∧
    (∀ f h, (HfSTP r).1 = some f → hhv f = some h → Hc hhv r = some h ∧ HcLower hhv r = some (h + 44011496 / 1000 * r.nH2O)) ∧
    (Hc hhv r = none ↔ HcLower hhv r = none) := by
  refine ⟨fun h => by simp [HfSTP, h], fun h => by simp [HfSTP, h], fun h => by simp [HfSTP, h], fun h => by simp [HfSTP, h, Hc], ?_, fun f h hf hh => ?_,
    by simp [HcLower]⟩
  · rcases hp : r.phase with _ | (_ | _ | _) <;> simp [HfSTP, hp, mass]
  · simp [Hc, HcLower, hf, hh]

/-- The elements in their standard states: enthalpies of zero, entropies per atom. -/
def elS (e : Elem) : Option ℚ := if e.homo then e.S.map (· / 2) else e.S

theorem gfg_elems : ∀ (l : List Elem) (ss : List ℚ), (∀ e ∈ l, e.H = some 0) → l.mapM elS = some ss →
    l.mapM (fun e => match elemHS e with | (some h, some s) => some (h * e.n, s * e.n) | _ => none) = some (List.zipWith (fun s (e : Elem) => ((0 : ℚ), s * e.n)) ss l)
  | [], ss, _, h => by
    simp only [List.mapM_nil] at h
    cases h; rfl
  | e :: l, ss, hH, h => by
    rw [List.mapM_cons] at h
    cases he : elS e with
    | none => rw [he] at h; simp at h
    | some s =>
      cases hl : l.mapM elS with
      | none => rw [he, hl] at h; simp at h
      | some sl =>
        rw [he, hl] at h
        cases h
        have ih := gfg_elems l sl (fun e h => hH e (List.mem_cons_of_mem _ h)) hl
        have h0 : e.H = some 0 := hH e (by simp)
        have hs : elemHS e = (some 0, some s) := by
          unfold elS at he
          unfold elemHS
          split_ifs at he ⊢ with hh
          · cases hS : e.S with
            | none => rw [hS] at he; simp at he
            | some x =>
              rw [hS] at he
              simp only [Option.map_some, Option.some.injEq] at he
              simp only [h0, Option.map_some, mul_zero, Prod.mk.injEq, Option.some.injEq, true_and]
              rw [← he]; ring
          · rw [h0, he]
        rw [List.mapM_cons, ih]
        simp [hs]

/-- C119: with elements of zero enthalpy of formation, the entropy of formation is the absolute entropy less that of the elements (half the molecule for diatomic ones),
and `G = H - T S` at 298.15 K. -/
theorem C119_formation (r : Raw) (H S : ℚ) (ss : List ℚ) (h1 : r.Hfg = some H) (h2 : r.S0g = some S) (hH : ∀ e ∈ r.els, e.H = some 0) (hS : r.els.mapM elS = some ss) :
    ∃ G s, Gfg r = some G ∧ Sfg r = some s ∧ s = S - (List.zipWith (fun x (e : Elem) => x * e.n) ss r.els).sum ∧ G = H - 29815 / 100 * s := by
  have hg := gfg_elems r.els ss hH hS
  have e1 : ((List.zipWith (fun s (e : Elem) => ((0 : ℚ), s * e.n)) ss r.els).map (·.1)).sum = 0 := by
    rw [List.map_zipWith]
    apply List.sum_eq_zero
    intro x hx
    rw [List.mem_iff_getElem] at hx
    obtain ⟨i, hi, rfl⟩ := hx
    simp
  have e2 : ((List.zipWith (fun s (e : Elem) => ((0 : ℚ), s * e.n)) ss r.els).map (·.2)).sum = (List.zipWith (fun x (e : Elem) => x * e.n) ss r.els).sum := by
    rw [List.map_zipWith]
  have hG : Gfg r = some (H - 29815 / 100 * (S - (List.zipWith (fun x (e : Elem) => x * e.n) ss r.els).sum)) := by
    unfold Gfg
    rw [h1, h2, hg]
    simp only [e1, e2, sub_zero]
  refine ⟨_, _, hG, ?_, rfl, rfl⟩
  unfold Sfg
  rw [h1, hG]
  simp only [Option.some.injEq]
  ring

/-- Water vapour, roughly. -/
def waterRaw : Raw where
  MW := 18
  Tc := some 647
  Pc := some 22064000
  Vc := some (56 / 1000000)
  Hfus := some 6010
  HvTb := some 40600
  Hv298 := some 43990
  Vmg := none
  Vl := some (18 / 1000000)
  Vl60 := none
  Vs := none
  Hfg := some (-241822)
  Hfl := some (-285825)
  Hfs := none
  S0g := some 188
  Hsub := none
  phase := some .l
  els := [⟨some 0, some 130, 2, true⟩, ⟨some 0, some 205, 1, true⟩]
  nH2O := 1

example : ∃ G s, Gfg waterRaw = some G ∧ Sfg waterRaw = some s ∧ s = 188 - (130 + 205 / 2) := by
  obtain ⟨G, s, h1, h2, h3, _⟩ := C119_formation waterRaw (-241822) 188 [65, 205 / 2] rfl rfl (by simp [waterRaw]) (by norm_num [waterRaw, elS])
  exact ⟨G, s, h1, h2, by rw [h3]; norm_num [waterRaw]⟩

example : (HfSTP waterRaw).1 = some (-285825) ∧ (Zc 8 waterRaw).isSome := ⟨rfl, by norm_num [Zc, waterRaw]⟩

/-- The names given to the constructor in `_from_IDs` (414-453). -/
def passed : List String :=
  ["CASs", "CASis", "names", "MWs", "Tms", "Tbs", "Tcs", "Pcs", "Vcs", "omegas", "Zcs", "rhocs", "rhocs_mass", "Hfus_Tms", "Hfus_Tms_mass", "Hvap_Tbs", "Hvap_Tbs_mass",
   "Vml_STPs", "rhol_STPs", "rhol_STPs_mass", "Vml_60Fs", "rhol_60Fs", "rhol_60Fs_mass", "Vmg_STPs", "rhog_STPs", "rhog_STPs_mass", "Hfgs", "Hfgs_mass", "Gfgs",
   "Gfgs_mass", "Sfgs", "Sfgs_mass", "S0gs", "S0gs_mass", "Hf_STPs", "Hf_STPs_mass", "Tts", "Pts", "Hsub_Tts", "Hsub_Tts_mass", "Hcs", "Hcs_mass", "Hcs_lower",
   "Hcs_lower_mass", "Tflashs", "Tautoignitions", "LFLs", "UFLs", "Psat_298s", "Hvap_298s", "Hvap_298s_mass", "Vml_Tms", "Vms_Tms", "rhos_Tms", "rhos_Tms_mass",
   "sigma_STPs", "sigma_Tbs", "sigma_Tms", "RIs", "RI_Ts", "conductivities", "conductivity_Ts", "charges", "dipoles", "Stockmayers", "molecular_diameters",
   "Van_der_Waals_volumes", "Van_der_Waals_areas", "Parachors", "StielPolars", "atomss", "atom_fractions", "similarity_variables", "phase_STPs", "UNIFAC_Rs",
   "UNIFAC_Qs", "solubility_parameters", "UNIFAC_groups", "UNIFAC_Dortmund_groups", "PSRK_groups", "PubChems", "formulas", "smiless", "InChIs", "InChI_Keys", "aliases",
   "GWPs", "ODPs", "logPs"]

/-- The end of `_from_IDs` when no correlations are asked for; `cols` are the lists computed before, whether passed or not. -/
def fromIDs (cols : String → List Cell) : Option Pack := init (passed.map fun p => (p, cols p))

/-- C119: the package made from identifiers has the lists computed for it, for the 91 attributes that are passed. -/
theorem C119_from_IDs (cols : String → List Cell) : ∃ c, fromIDs cols = some c ∧ c.N = (cols "MWs").length ∧ ∀ p ∈ passed, c.get p = cols p := by
  have hin : ∀ p ∈ passed, p ∈ properties := by decide +kernel
  have hm : "MWs" ∈ passed := by decide +kernel
  have hl := lookup_map (f := cols) hm
  obtain ⟨c, hc⟩ := Option.isSome_iff_exists.1 (init_isSome (kw := passed.map fun p => (p, cols p)) (by
    intro e he
    simp only [List.mem_map] at he
    obtain ⟨p, hp, rfl⟩ := he
    exact hin p hp) hl)
  obtain ⟨h1, h2, h3, _⟩ := (C119_init _).2 c hc
  refine ⟨c, hc, ?_, fun p hp => h1 p _ (lookup_map hp)⟩
  rw [h3, h1 _ _ hl]

/-- C119 (`_fails`): exposure limits, skin absorption and carcinogen status are computed for the components and then not handed over: whatever the tables say, the package
has `None`. Nothing else is left out except economic and legal status and functional groups, which are not computed. -/
theorem C119_exposure_fails (cols : String → List Cell) (c : Pack) (h : fromIDs cols = some c) :
    (∀ p ∈ ["TWAs", "STELs", "Skins", "Ceilings", "Carcinogens"], c.get p = List.replicate c.N none) ∧
    properties.filter (· ∉ passed) = ["Carcinogens", "Ceilings", "economic_statuses", "legal_statuses", "Skins", "STELs", "TWAs", "functional_groups"] := by
  refine ⟨fun p hp => ((C119_init _).2 c h).2.1 p (lookup_map_none ?_), by decide +kernel⟩
  revert p
  decide +kernel

end Verif.ConstPack
