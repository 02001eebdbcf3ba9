import Mathlib.Data.Rat.Defs
import Mathlib.Tactic
import Verif.TDep.Construct

/-!
# C164: the methods of the allotropes of a solid

`thermo/utils/t_dependent_property.py`: the part of `TDependentProperty.__init__` that reads the data files for a
substance and for its allotropes (4922-4965), the method that joins them at the transitions (4983-4987), and the checks of
`add_piecewise_method` on temperatures (3616-3619).

The database gives the dictionaries by keyword of the correlation for a substance and the class of the property; it stands for the loaded
files (their merging is C124). Dictionaries of the substance itself are not copied: `kwargs[key] = json_based_data` (4929) makes the one of
the database the one in `kwargs`, and `kwargs[key].update` (4963) writes into it. `shared` lists these keywords, and the database is
rewritten after every allotrope. `solid_allotrope_map` and `allotrope_CAS_to_name` of `chemicals` are arbitrary. A correlation is its limits
with a number standing for its coefficients. Not modelled: that the names to be joined are methods, which is C124.
-/

namespace Verif.Allotropes

open Verif.Construct

/-- The data of one correlation. -/
structure Corr where
  Tmin : ℚ
  Tmax : ℚ
  data : ℕ
  deriving DecidableEq

/-- An entry of `all_CASs` with its name. -/
structure Allo where
  cas : String
  name : String
  deriving DecidableEq

/-- `solid_allotrope_map[CASRN]`, and the names of `extra_correlations_internal`. -/
structure Cfg where
  main : String
  allos : List Allo
  trans : List String
  T : List ℚ
  internal : List String

/-- The files, for one class of property: keyword and dictionary by substance. -/
abbrev Db := String → Dict (Dict Corr)

/-- The correlations of a dictionary under their new names (4951-4954). -/
def raw (c : Cfg) (a : Allo) (d : Dict Corr) : Dict Corr :=
  (d.filter fun p => p.1 ∉ c.internal).map fun p => (p.1 ++ " " ++ a.name, p.2)

/-- `json_based_data_copy` for every keyword (4949-4954). -/
def copies (c : Cfg) (a : Allo) (f : Dict (Dict Corr)) : Dict (Dict Corr) := f.map fun p => (p.1, Dict.update [] (raw c a p.2))

/-- What is collected for the joining method. -/
structure Auto where
  names : List (Option String)
  T : List ℚ
  skip : List String
  found : Bool
  deriving DecidableEq

/-- One correlation of the allotrope at a position among the transitions (4952-4961). -/
def note (count : ℕ) (i : Option ℕ) (s : Auto) (p : String × Corr) : Auto where
  names := match i with
    | some j => s.names.set j (some p.1)
    | none => s.names
  T := if i = some 0 then p.2.Tmin :: s.T else if i = some (count - 1) then s.T ++ [p.2.Tmax] else s.T
  skip := s.skip ++ [p.1]
  found := true

/-- Dictionaries of the database that are also in `kwargs` (4929). -/
def sync (shared : List String) (kw d : Dict (Dict Corr)) : Dict (Dict Corr) :=
  d.map fun p => (p.1, if p.1 ∈ shared then (kw.get p.1).getD p.2 else p.2)

structure St where
  kw : Dict (Dict Corr)
  db : Db
  auto : Auto

/-- One allotrope (4940-4965). -/
def step (c : Cfg) (shared : List String) (s : St) (a : Allo) : St where
  kw := mergeKw s.kw (copies c a (s.db a.cas))
  db := Function.update s.db c.main (sync shared (mergeKw s.kw (copies c a (s.db a.cas))) (s.db c.main))
  auto := ((s.db a.cas).flatMap fun p => raw c a p.2).foldl (note c.trans.length (c.trans.idxOf? a.cas)) s.auto

/-- Before the allotropes (4922-4938). -/
def start (c : Cfg) (user : Dict (Dict Corr)) (db : Db) : St := ⟨mergeKw user (db c.main), db, ⟨List.replicate c.trans.length none, c.T, [], false⟩⟩

/-- Keywords whose dictionary in `kwargs` is the one of the database (4926-4929). -/
def shared (c : Cfg) (user : Dict (Dict Corr)) (db : Db) : List String := (db c.main).keys.filter (· ∉ user.keys)

/-- All of it (4922-4965). -/
def load (c : Cfg) (user : Dict (Dict Corr)) (db : Db) : St := c.allos.foldl (step c (shared c user db)) (start c user db)

/-- The joining method (4983-4987, 3616-3619): `none` is a `ValueError`, `some none` is no such method. -/
def joined (a : Auto) : Option (Option (List (Option String) × List ℚ)) :=
  if a.found = true ∧ none ∉ a.names then
    if a.names.length + 1 = a.T.length ∧ a.T.Pairwise (· ≤ ·) then some (some (a.names, a.T)) else none
  else some none

/-! ## What is found -/

/-- All methods of allotropes: keyword, new name, data, in the order of the files. -/
def methods (c : Cfg) (db : Db) : List (String × String × Corr) :=
  c.allos.flatMap fun a => (db a.cas).flatMap fun kd => (kd.2.filter fun p => p.1 ∉ c.internal).map fun p => (kd.1, p.1 ++ " " ++ a.name, p.2)

/-- The last of a list with a keyword and a name. -/
def lastT (l : List (String × String × Corr)) (x n : String) : Option Corr := (l.reverse.find? fun t => t.1 = x ∧ t.2.1 = n).map (·.2.2)

/-- `kwargs[x][n]`. -/
def val (kw : Dict (Dict Corr)) (x n : String) : Option Corr := (kw.get x).bind (·.get n)

theorem lastT_append (l m : List (String × String × Corr)) (x n : String) : lastT (l ++ m) x n = (lastT m x n).or (lastT l x n) := by
  unfold lastT
  rw [List.reverse_append, List.find?_append]
  cases (m.reverse.find? fun t => decide (t.1 = x ∧ t.2.1 = n)) <;> simp

theorem lastT_tag (d : Dict Corr) (k x n : String) : lastT (d.map fun p => (k, p.1, p.2)) x n = if x = k then lastOf d n else none := by
  unfold lastT lastOf Dict.get
  rw [← List.map_reverse, List.find?_map]
  by_cases h : x = k
  · subst h
    rw [if_pos rfl]
    rw [Option.map_map]
    congr 1
    congr 1
    funext p
    simp
  · have h' : ¬ k = x := fun e => h e.symm
    rw [if_neg h]
    have : (d.reverse.find? ((fun t : String × String × Corr => decide (t.1 = x ∧ t.2.1 = n)) ∘ fun p => (k, p.1, p.2))) = none := by
      rw [List.find?_eq_none]
      intro p _
      simp [h']
    rw [this]
    rfl

theorem val_copy (kw : Dict (Dict Corr)) (k : String) (e : Dict Corr) (x n : String) :
    val (match kw.get k with
      | some d => kw.set k (d.update (Dict.update [] e))
      | none => kw.set k (Dict.update [] e)) x n = (lastT (e.map fun p => (k, p.1, p.2)) x n).or (val kw x n) := by
  have hu : ∀ y, lastOf (Dict.update [] e) y = lastOf e y := by
    have hn : (Dict.update ([] : Dict Corr) e).keys.Nodup := by
      unfold Dict.update
      have key : ∀ (l : Dict Corr) (acc : Dict Corr), acc.keys.Nodup → (l.foldl (fun d p => d.set p.1 p.2) acc).keys.Nodup := by
        intro l
        induction l with
        | nil => intro acc h; exact h
        | cons p l ih =>
          intro acc h
          refine ih _ ?_
          rw [keys_set]
          split_ifs with hm
          · exact h
          · exact List.nodup_append.2 ⟨h, by simp, by intro a ha b hb; simp at hb; rintro rfl; exact hm (hb ▸ ha)⟩
      exact key e [] (by simp [Dict.keys])
    intro y
    rw [lastOf_nodup _ _ hn, get_update]
    simp [Dict.get]
  rw [lastT_tag]
  unfold val
  by_cases h : x = k
  · subst h
    rw [if_pos rfl]
    cases hg : kw.get x with
    | none =>
      simp only [get_set, if_true, Option.bind_some, get_update, Option.bind_none]
      simp [Dict.get]
    | some d =>
      simp only [get_set, if_true, Option.bind_some, get_update, hu]
  · rw [if_neg h]
    cases kw.get k <;> simp [get_set, h]

theorem val_copies (c : Cfg) (a : Allo) (f kw : Dict (Dict Corr)) (x n : String) :
    val (mergeKw kw (copies c a f)) x n = (lastT (f.flatMap fun kd => (raw c a kd.2).map fun p => (kd.1, p.1, p.2)) x n).or (val kw x n) := by
  induction f generalizing kw with
  | nil => simp [copies, mergeKw, lastT]
  | cons p f ih =>
    have e : mergeKw kw (copies c a (p :: f)) = mergeKw (match kw.get p.1 with
      | some d => kw.set p.1 (d.update (Dict.update [] (raw c a p.2)))
      | none => kw.set p.1 (Dict.update [] (raw c a p.2))) (copies c a f) := by
      unfold mergeKw copies
      rw [List.map_cons, List.foldl_cons]
      dsimp only
      cases kw.get p.1 <;> rfl
    rw [e, ih, val_copy, List.flatMap_cons, lastT_append, Option.or_assoc]

theorem step_other (c : Cfg) (sh : List String) (s : St) (a : Allo) (k : String) (h : k ≠ c.main) : (step c sh s a).db k = s.db k := by
  simp [step, Function.update_of_ne h]

/-- The state after a part of the allotropes, none of which is the substance itself. -/
theorem fold_spec (c : Cfg) (sh : List String) (db : Db) (s : St) (l : List Allo) (hl : ∀ a ∈ l, a.cas ≠ c.main) (hs : ∀ k, k ≠ c.main → s.db k = db k) (x n : String) :
    val (l.foldl (step c sh) s).kw x n = (lastT (methods { c with allos := l } db) x n).or (val s.kw x n) ∧
    (l.foldl (step c sh) s).auto = l.foldl (fun t a => ((db a.cas).flatMap fun p => raw c a p.2).foldl (note c.trans.length (c.trans.idxOf? a.cas)) t) s.auto := by
  induction l generalizing s with
  | nil => simp [methods, lastT]
  | cons a l ih =>
    have ha := hl a (by simp)
    obtain ⟨h1, h2⟩ := ih (step c sh s a) (fun b hb => hl b (by simp [hb])) (fun k hk => (step_other c sh s a k hk).trans (hs k hk))
    rw [List.foldl_cons, List.foldl_cons, h1, h2]
    constructor
    · have e : methods { c with allos := a :: l } db = ((db a.cas).flatMap fun kd => (raw c a kd.2).map fun p => (kd.1, p.1, p.2)) ++ methods { c with allos := l } db := by
        simp [methods, raw, List.map_map, Function.comp_def]
      rw [e, lastT_append, Option.or_assoc]
      congr 1
      show val (mergeKw s.kw (copies c a (s.db a.cas))) x n = _
      rw [val_copies, hs _ ha]
    · show _ = l.foldl _ _
      congr 1
      show ((s.db a.cas).flatMap fun p => raw c a p.2).foldl _ _ = _
      rw [hs _ ha]

/-- **C164.** Every method of an allotrope is there under its own name followed by that of the allotrope, with its own data, except for the
names built in; of equal names the last one counts, and everything else is as the substance and the caller have it. The allotropes are
other substances than the one asked for. -/
theorem C164_methods (c : Cfg) (user : Dict (Dict Corr)) (db : Db) (h : ∀ a ∈ c.allos, a.cas ≠ c.main) (x n : String) :
    val (load c user db).kw x n = (lastT (methods c db) x n).or (val (mergeKw user (db c.main)) x n) :=
  (fold_spec c (shared c user db) db (start c user db) c.allos h (fun _ _ => rfl) x n).1

/-- The substance and the two allotropes of the examples, with one, one and one method. -/
def tin : Cfg := ⟨"Sn", [⟨"Sn-b", "beta"⟩, ⟨"Sn-a", "alpha"⟩], ["Sn-a", "Sn-b"], [286], ["JANAF_FIT"]⟩

def tinDb : Db := fun k => if k = "Sn" then [("P", [("UNARY", ⟨298, 505, 1⟩)])] else
  if k = "Sn-a" then [("P", [("JANAF_FIT", ⟨1, 2, 9⟩), ("UNARY", ⟨100, 286, 2⟩)])] else
  if k = "Sn-b" then [("P", [("UNARY", ⟨286, 505, 3⟩)])] else []

example : (∀ a ∈ tin.allos, a.cas ≠ tin.main) ∧ val (load tin [] tinDb).kw "P" "UNARY alpha" = some ⟨100, 286, 2⟩ ∧ val (load tin [] tinDb).kw "P" "UNARY beta" = some ⟨286, 505, 3⟩ ∧
    val (load tin [] tinDb).kw "P" "JANAF_FIT alpha" = none ∧ val (load tin [] tinDb).kw "P" "UNARY" = some ⟨298, 505, 1⟩ := by decide +kernel

theorem note_skip (m : ℕ) (i : Option ℕ) (l : Dict Corr) (s : Auto) : (l.foldl (note m i) s).skip = s.skip ++ l.map (·.1) ∧ (l.foldl (note m i) s).found = (s.found || !l.isEmpty) := by
  induction l generalizing s with
  | nil => simp
  | cons p l ih =>
    rw [List.foldl_cons, (ih _).1, (ih _).2]
    simp [note]

/-- The names that are not to be selected are exactly those of the methods of the allotropes, and allotropes count as found if there is
one. -/
theorem C164_marked (c : Cfg) (user : Dict (Dict Corr)) (db : Db) (h : ∀ a ∈ c.allos, a.cas ≠ c.main) :
    (load c user db).auto.skip = (methods c db).map (·.2.1) ∧ ((load c user db).auto.found = true ↔ methods c db ≠ []) := by
  have h2 := (fold_spec c (shared c user db) db (start c user db) c.allos h (fun _ _ => rfl) "" "").2
  have key : ∀ (l : List Allo) (s : Auto),
      (l.foldl (fun t a => ((db a.cas).flatMap fun p => raw c a p.2).foldl (note c.trans.length (c.trans.idxOf? a.cas)) t) s).skip = s.skip ++ (methods { c with allos := l } db).map (·.2.1) ∧
      ((l.foldl (fun t a => ((db a.cas).flatMap fun p => raw c a p.2).foldl (note c.trans.length (c.trans.idxOf? a.cas)) t) s).found = true ↔ s.found = true ∨ methods { c with allos := l } db ≠ []) := by
    intro l
    induction l with
    | nil => intro s; simp [methods]
    | cons a l ih =>
      intro s
      have e : (methods { c with allos := a :: l } db) = ((db a.cas).flatMap fun kd => (raw c a kd.2).map fun p => (kd.1, p.1, p.2)) ++ methods { c with allos := l } db := by
        simp [methods, raw, List.map_map, Function.comp_def]
      have e2 : (((db a.cas).flatMap fun kd => (raw c a kd.2).map fun p => (kd.1, p.1, p.2)).map (·.2.1)) = ((db a.cas).flatMap fun p => raw c a p.2).map (·.1) := by
        simp [List.map_flatMap, List.map_map, Function.comp_def]
      have e3 : ((db a.cas).flatMap fun kd => (raw c a kd.2).map fun p => (kd.1, p.1, p.2)) = [] ↔ ((db a.cas).flatMap fun p => raw c a p.2) = [] := by
        simp [List.flatMap_eq_nil_iff]
      rw [List.foldl_cons, (ih _).1, (ih _).2, (note_skip _ _ _ _).1, (note_skip _ _ _ _).2, e, List.map_append, e2, List.append_assoc]
      refine ⟨rfl, ?_⟩
      rw [Ne, Ne, List.append_eq_nil_iff, e3]
      simp only [Bool.or_eq_true, Bool.not_eq_true', List.isEmpty_eq_false_iff]
      tauto
  have := key c.allos (start c user db).auto
  unfold load
  rw [h2]
  refine ⟨this.1.trans (by simp [start]), this.2.trans (by simp [start])⟩

example : (load tin [] tinDb).auto.skip = ["UNARY beta", "UNARY alpha"] ∧ (load tin [] tinDb).auto.found = true := by decide +kernel

/-! ## The joining method -/

theorem note_none (m : ℕ) (l : Dict Corr) (s : Auto) : (l.foldl (note m none) s).names = s.names ∧ (l.foldl (note m none) s).T = s.T := by
  induction l generalizing s with
  | nil => simp
  | cons p l ih => rw [List.foldl_cons, (ih _).1, (ih _).2]; simp [note]

/-- **C164.** If each of two or more allotropes at the transitions is listed once and has one method, the names that are joined are those
methods in the order of the transitions, and the temperatures are the lower limit of the first, the transitions and the upper limit of the
last, in whatever order the allotropes are listed. -/
theorem C164_joined (c : Cfg) (user : Dict (Dict Corr)) (db : Db) (h : ∀ a ∈ c.allos, a.cas ≠ c.main) (e : String → String × Corr)
    (ha : (c.allos.map (·.cas)).Nodup) (hc : 2 ≤ c.trans.length) (ht : c.trans.Nodup) (hin : ∀ k ∈ c.trans, ∃ a ∈ c.allos, a.cas = k)
    (he : ∀ a ∈ c.allos, a.cas ∈ c.trans → ((db a.cas).flatMap fun p => raw c a p.2) = [e a.cas]) (f l : String) (hf : c.trans.head? = some f) (hl : c.trans.getLast? = some l) :
    (load c user db).auto.names = c.trans.map (fun k => some (e k).1) ∧ (load c user db).auto.T = (e f).2.Tmin :: c.T ++ [(e l).2.Tmax] := by
  have h2 := (fold_spec c (shared c user db) db (start c user db) c.allos h (fun _ _ => rfl) "" "").2
  have h0 : c.trans[0]? = some f := by rw [← hf, List.head?_eq_getElem?]
  have h9 : c.trans[c.trans.length - 1]? = some l := by rw [← hl, List.getLast?_eq_getElem?]
  have inj : ∀ i j : ℕ, ∀ k, c.trans[i]? = some k → c.trans[j]? = some k → i = j := by
    intro i j k hi hj
    obtain ⟨hi', hi⟩ := List.getElem?_eq_some_iff.1 hi
    obtain ⟨hj', hj⟩ := List.getElem?_eq_some_iff.1 hj
    exact (ht.getElem_inj_iff (hi := hi') (hj := hj')).1 (hi.trans hj.symm)
  have key : ∀ (m : List Allo) (s : Auto), (∀ a ∈ m, a ∈ c.allos) → (m.map (·.cas)).Nodup → s.names.length = c.trans.length →
      (m.foldl (fun t a => ((db a.cas).flatMap fun p => raw c a p.2).foldl (note c.trans.length (c.trans.idxOf? a.cas)) t) s).T =
        (if f ∈ m.map (·.cas) then [(e f).2.Tmin] else []) ++ s.T ++ (if l ∈ m.map (·.cas) then [(e l).2.Tmax] else []) ∧
      ∀ (i : ℕ) (k : String), c.trans[i]? = some k →
        (m.foldl (fun t a => ((db a.cas).flatMap fun p => raw c a p.2).foldl (note c.trans.length (c.trans.idxOf? a.cas)) t) s).names[i]? = if k ∈ m.map (·.cas) then some (some (e k).1) else s.names[i]? := by
    intro m
    induction m with
    | nil => intro s _ _ _; simp
    | cons a m ih =>
      intro s hm hn hlen
      rw [List.map_cons, List.nodup_cons] at hn
      rw [List.foldl_cons]
      cases hx : c.trans.idxOf? a.cas with
      | none =>
        have hnot : a.cas ∉ c.trans := List.idxOf?_eq_none_iff.1 hx
        obtain ⟨n1, n2⟩ := note_none c.trans.length ((db a.cas).flatMap fun p => raw c a p.2) s
        obtain ⟨i1, i2⟩ := ih (((db a.cas).flatMap fun p => raw c a p.2).foldl (note c.trans.length none) s) (fun b hb => hm b (by simp [hb])) hn.2 (by rw [n1]; exact hlen)
        have ne : ∀ (i : ℕ) (k : String), c.trans[i]? = some k → (k ∈ (a :: m).map (·.cas) ↔ k ∈ m.map (·.cas)) := by
          intro i k hk
          rw [List.map_cons, List.mem_cons]
          constructor
          · rintro (rfl | h)
            · exact absurd (List.mem_of_getElem? hk) hnot
            · exact h
          · exact Or.inr
        constructor
        · rw [i1, n2]
          simp only [ne 0 f h0, ne _ l h9]
        · intro i k hk
          rw [i2 i k hk, n1]
          simp only [ne i k hk]
      | some j =>
        have hj : c.trans[j]? = some a.cas := by
          obtain ⟨hj, hj2, _⟩ := List.findIdx?_eq_some_iff_getElem.1 hx
          rw [List.getElem?_eq_getElem hj]
          exact congrArg some (by simpa using hj2)
        have hjl : j < c.trans.length := (List.getElem?_eq_some_iff.1 hj).1
        rw [he a (hm a (by simp)) (List.mem_of_getElem? hj), List.foldl_cons, List.foldl_nil]
        obtain ⟨i1, i2⟩ := ih (note c.trans.length (some j) s (e a.cas)) (fun b hb => hm b (by simp [hb])) hn.2 (by simp [note, hlen])
        constructor
        · rw [i1]
          by_cases c0 : j = 0
          · subst c0
            have ef : f = a.cas := by rw [h0] at hj; exact Option.some.inj hj
            have el : ¬ l = a.cas := by
              intro el
              have := inj _ _ l h9 (el ▸ hj)
              omega
            have e1 : f ∉ m.map (·.cas) := ef ▸ hn.1
            rw [if_neg e1, if_pos (show f ∈ (a :: m).map (·.cas) by rw [ef]; simp)]
            have e2 : (l ∈ (a :: m).map (·.cas)) ↔ l ∈ m.map (·.cas) := by simp only [List.map_cons, List.mem_cons, el, false_or]
            simp only [e2, note, if_true, ef]
            rfl
          · have ef : ¬ f = a.cas := by
              intro ef
              exact c0 (inj _ _ f (ef ▸ hj) h0)
            have e2 : (f ∈ (a :: m).map (·.cas)) ↔ f ∈ m.map (·.cas) := by simp only [List.map_cons, List.mem_cons, ef, false_or]
            have j0 : ¬ (some j = some 0) := fun h => c0 (Option.some.inj h)
            by_cases c9 : j = c.trans.length - 1
            · have el : l = a.cas := by rw [← c9] at h9; rw [h9] at hj; exact Option.some.inj hj
              have e1 : l ∉ m.map (·.cas) := el ▸ hn.1
              rw [if_neg e1, if_pos (show l ∈ (a :: m).map (·.cas) by rw [el]; simp)]
              simp only [e2, note, if_neg j0, if_pos (congrArg some c9), el, List.append_nil, List.append_assoc]
            · have el : ¬ l = a.cas := by
                intro el
                exact c9 (inj _ _ l (el ▸ hj) h9)
              have e3 : (l ∈ (a :: m).map (·.cas)) ↔ l ∈ m.map (·.cas) := by simp only [List.map_cons, List.mem_cons, el, false_or]
              have j9 : ¬ (some j = some (c.trans.length - 1)) := fun h => c9 (Option.some.inj h)
              simp only [e2, e3, note, if_neg j0, if_neg j9]
        · intro i k hk
          rw [i2 i k hk]
          by_cases hi : i = j
          · subst hi
            have ek : k = a.cas := by rw [hk] at hj; exact Option.some.inj hj
            rw [if_neg (show k ∉ m.map (·.cas) from ek ▸ hn.1), if_pos (show k ∈ (a :: m).map (·.cas) by rw [ek]; simp)]
            simp only [note]
            rw [List.getElem?_set_self (by omega), ek]
          · have ek : ¬ k = a.cas := fun ek => hi (inj _ _ k hk (ek ▸ hj))
            have e2 : (k ∈ (a :: m).map (·.cas)) ↔ k ∈ m.map (·.cas) := by simp only [List.map_cons, List.mem_cons, ek, false_or]
            simp only [e2, note]
            rw [List.getElem?_set_ne (fun h => hi h.symm)]
  obtain ⟨k1, k2⟩ := key c.allos (start c user db).auto (fun _ h => h) ha (by simp [start])
  have mem : ∀ k ∈ c.trans, k ∈ c.allos.map (·.cas) := by
    intro k hk
    obtain ⟨a, ha, rfl⟩ := hin k hk
    exact List.mem_map_of_mem ha
  unfold load
  rw [h2]
  constructor
  · apply List.ext_getElem?
    intro i
    cases hk : c.trans[i]? with
    | some k =>
      rw [k2 i k hk, if_pos (mem k (List.mem_of_getElem? hk)), List.getElem?_map, hk]
      rfl
    | none =>
      have hlen : ∀ (m : List Allo) (s : Auto), (m.foldl (fun t a => ((db a.cas).flatMap fun p => raw c a p.2).foldl (note c.trans.length (c.trans.idxOf? a.cas)) t) s).names.length = s.names.length := by
        have one : ∀ (o : Option ℕ) (d : Dict Corr) (s : Auto), (d.foldl (note c.trans.length o) s).names.length = s.names.length := by
          intro o d
          induction d with
          | nil => intro s; rfl
          | cons p d ih => intro s; rw [List.foldl_cons, ih]; cases o <;> simp [note]
        intro m
        induction m with
        | nil => intro s; rfl
        | cons a m ih => intro s; rw [List.foldl_cons, ih, one]
      rw [List.getElem?_map, hk, Option.map_none, List.getElem?_eq_none_iff, hlen]
      simpa [start] using List.getElem?_eq_none_iff.1 hk
  · rw [k1, if_pos (mem f (List.mem_of_getElem? h0)), if_pos (mem l (List.mem_of_getElem? h9))]
    rfl

example : (load tin [] tinDb).auto = ⟨[some "UNARY alpha", some "UNARY beta"], [100, 286, 505], ["UNARY beta", "UNARY alpha"], true⟩ ∧
    (tin.allos.map (·.cas)).Nodup ∧ 2 ≤ tin.trans.length ∧ tin.trans.Nodup ∧ (∀ k ∈ tin.trans, ∃ a ∈ tin.allos, a.cas = k) ∧
    (∀ a ∈ tin.allos, a.cas ∈ tin.trans → ((tinDb a.cas).flatMap fun p => raw tin a p.2) = [if a.cas = "Sn-a" then ("UNARY alpha", ⟨100, 286, 2⟩) else ("UNARY beta", ⟨286, 505, 3⟩)]) := by decide +kernel

/-- The joining method is taken if there is one transition between any two allotropes and the temperatures ascend; otherwise the
constructor raises an exception. -/
theorem C164_taken (c : Cfg) (user : Dict (Dict Corr)) (db : Db) (h : ∀ a ∈ c.allos, a.cas ≠ c.main) (e : String → String × Corr)
    (ha : (c.allos.map (·.cas)).Nodup) (hc : 2 ≤ c.trans.length) (ht : c.trans.Nodup) (hin : ∀ k ∈ c.trans, ∃ a ∈ c.allos, a.cas = k)
    (he : ∀ a ∈ c.allos, a.cas ∈ c.trans → ((db a.cas).flatMap fun p => raw c a p.2) = [e a.cas]) (f l : String) (hf : c.trans.head? = some f) (hl : c.trans.getLast? = some l)
    (hT : c.T.length + 1 = c.trans.length) :
    joined (load c user db).auto = if ((e f).2.Tmin :: c.T ++ [(e l).2.Tmax]).Pairwise (· ≤ ·)
      then some (some (c.trans.map (fun k => some (e k).1), (e f).2.Tmin :: c.T ++ [(e l).2.Tmax])) else none := by
  obtain ⟨h1, h2⟩ := C164_joined c user db h e ha hc ht hin he f l hf hl
  have h3 : (load c user db).auto.found = true := by
    refine (C164_marked c user db h).2.2 ?_
    have hmem : f ∈ c.trans := List.mem_of_mem_head? hf
    obtain ⟨a, haa, rfl⟩ := hin f hmem
    have h5 := he a haa hmem
    intro h6
    have h7 : ((db a.cas).flatMap fun p => raw c a p.2) = [] := by
      rw [methods, List.flatMap_eq_nil_iff] at h6
      have := h6 a haa
      rw [List.flatMap_eq_nil_iff] at this ⊢
      intro p hp
      have := this p hp
      simpa [raw] using this
    rw [h7] at h5
    simp at h5
  unfold joined
  rw [h1, h2, h3, if_pos ⟨rfl, by simp⟩]
  by_cases hp : ((e f).2.Tmin :: c.T ++ [(e l).2.Tmax]).Pairwise (· ≤ ·)
  · rw [if_pos hp, if_pos ⟨by simp; omega, hp⟩]
  · rw [if_neg hp, if_neg (fun h => hp h.2)]

example : joined (load tin [] tinDb).auto = some (some ([some "UNARY alpha", some "UNARY beta"], [100, 286, 505])) ∧ tin.T.length + 1 = tin.trans.length := by decide +kernel

/-- Without a method for one of the allotropes at the transitions there is no joining method. -/
theorem C164_absent (a : Auto) (h : none ∈ a.names) : joined a = some none := by
  unfold joined
  rw [if_neg (fun h' => h'.2 h)]

example : joined (load tin [] (fun k => if k = "Sn-a" then [] else tinDb k)).auto = some none ∧ none ∈ (load tin [] (fun k => if k = "Sn-a" then [] else tinDb k)).auto.names := by decide +kernel

/-- **C164 fails.** A second method for the first allotrope puts its lower limit in front a second time, and a second one for the last
appends its upper limit again; the constructor then raises an exception about inconsistent ranges. A second method for one in between
replaces the first in the joining method. -/
theorem C164_two_fails :
    (load tin [] (fun k => if k = "Sn-a" then [("P", [("UNARY", ⟨100, 286, 2⟩), ("FIT", ⟨50, 286, 4⟩)])] else tinDb k)).auto.T = [50, 100, 286, 505] ∧
    joined (load tin [] (fun k => if k = "Sn-a" then [("P", [("UNARY", ⟨100, 286, 2⟩), ("FIT", ⟨50, 286, 4⟩)])] else tinDb k)).auto = none ∧
    joined (load tin [] (fun k => if k = "Sn-b" then [("P", [("UNARY", ⟨286, 505, 2⟩)]), ("Q", [("FIT", ⟨286, 500, 4⟩)])] else tinDb k)).auto = none ∧
    (load ⟨"S", [⟨"1", "a"⟩, ⟨"2", "b"⟩, ⟨"3", "c"⟩], ["1", "2", "3"], [200, 300], []⟩ [] (fun k => if k = "2" then [("P", [("X", ⟨200, 300, 1⟩), ("Y", ⟨200, 250, 2⟩)])] else [("P", [("X", ⟨100, 400, 3⟩)])])).auto.names =
      [some "X a", some "Y b", some "X c"] := by decide +kernel

/-- **C164 fails.** With a single allotrope at the transitions the upper limit is not appended, and the constructor raises an exception. -/
theorem C164_single_fails : ∀ v : Corr, joined (load ⟨"S", [⟨"1", "a"⟩], ["1"], [], []⟩ [] (fun k => if k = "1" then [("P", [("X", v)])] else [])).auto = none := by
  intro v
  have e : (load ⟨"S", [⟨"1", "a"⟩], ["1"], [], []⟩ [] (fun k => if k = "1" then [("P", [("X", v)])] else [])).auto = ⟨[some "X a"], [v.Tmin], ["X a"], true⟩ := by
    simp [load, step, start, note, raw, List.idxOf?, List.findIdx?, List.findIdx?.go]
  rw [e]
  simp [joined]

/-! ## The loaded data -/

/-- **C164 fails.** Constructing an object writes the methods of the allotropes into the loaded data of the substance itself, from which
later objects are made. -/
theorem C164_database_fails : (tinDb "Sn") = [("P", [("UNARY", ⟨298, 505, 1⟩)])] ∧
    (load tin [] tinDb).db "Sn" = [("P", [("UNARY", ⟨298, 505, 1⟩), ("UNARY beta", ⟨286, 505, 3⟩), ("UNARY alpha", ⟨100, 286, 2⟩)])] := by decide +kernel

/-- **C164 fails.** If the substance is listed among its own allotropes, a second object has a method with the name of the allotrope twice,
and its joining method is refused. -/
theorem C164_growing_fails :
    let c : Cfg := ⟨"C", [⟨"C", "graphite"⟩, ⟨"D", "diamond"⟩], ["C", "D"], [1000], []⟩
    let db : Db := fun k => if k = "C" then [("P", [("UNARY", ⟨298, 1000, 1⟩)])] else if k = "D" then [("P", [("UNARY", ⟨1000, 6000, 2⟩)])] else []
    val (load c [] db).kw "P" "UNARY graphite graphite" = none ∧ joined (load c [] db).auto = some (some ([some "UNARY graphite", some "UNARY diamond"], [298, 1000, 6000])) ∧
    val (load c [] (load c [] db).db).kw "P" "UNARY graphite graphite" = some ⟨298, 1000, 1⟩ ∧ joined (load c [] (load c [] db).db).auto = none := by decide +kernel

/-- The data of every other substance is left as it is. -/
theorem C164_others (c : Cfg) (user : Dict (Dict Corr)) (db : Db) (k : String) (h : k ≠ c.main) : (load c user db).db k = db k := by
  unfold load
  have key : ∀ (m : List Allo) (s : St), s.db k = db k → (m.foldl (step c (shared c user db)) s).db k = db k := by
    intro m
    induction m with
    | nil => intro s hs; exact hs
    | cons a m ih => intro s hs; exact ih _ ((step_other c _ s a k h).trans hs)
  exact key _ _ rfl

example : (load tin [] tinDb).db "Sn-a" = tinDb "Sn-a" ∧ "Sn-a" ≠ tin.main := by decide +kernel

theorem get_sync (sh : List String) (kw d : Dict (Dict Corr)) (x : String) : (sync sh kw d).get x = (d.get x).map fun v => if x ∈ sh then (kw.get x).getD v else v := by
  induction d with
  | nil => simp [sync, Dict.get]
  | cons p d ih =>
    unfold sync Dict.get at ih ⊢
    by_cases h : p.1 = x
    · subst h; simp
    · simpa [h] using ih

theorem keys_sync (sh : List String) (kw d : Dict (Dict Corr)) : (sync sh kw d).keys = d.keys := by
  simp [sync, Dict.keys, List.map_map, Function.comp_def]

theorem some_mergeKw (js kw : Dict (Dict Corr)) (x : String) (h : (kw.get x).isSome) : ((mergeKw kw js).get x).isSome := by
  induction js generalizing kw with
  | nil => exact h
  | cons p js ih =>
    unfold mergeKw at ih ⊢
    rw [List.foldl_cons]
    refine ih _ ?_
    cases kw.get p.1 <;> simp only [get_set] <;> split_ifs <;> simp [h]

theorem get_isSome (d : Dict (Dict Corr)) (x : String) : (d.get x).isSome ↔ x ∈ d.keys := by
  unfold Dict.get Dict.keys
  simp

theorem mergeKw_nil (d : Dict (Dict Corr)) (h : d.keys.Nodup) (x : String) : (mergeKw [] d).get x = d.get x := by
  have key : ∀ (js acc : Dict (Dict Corr)), js.keys.Nodup → (∀ k ∈ js.keys, acc.get k = none) → (mergeKw acc js).get x = (js.get x).or (acc.get x) := by
    intro js
    induction js with
    | nil => intro acc _ _; simp [mergeKw, Dict.get]
    | cons p js ih =>
      intro acc hn ha
      have hn' := List.nodup_cons.1 (by simpa [Dict.keys] using hn : (p.1 :: js.map (·.1)).Nodup)
      have e : mergeKw acc (p :: js) = mergeKw (acc.set p.1 p.2) js := by
        unfold mergeKw
        rw [List.foldl_cons, ha p.1 (by simp [Dict.keys])]
      rw [e, ih _ hn'.2]
      · rw [get_set]
        by_cases hx : x = p.1
        · subst hx
          have : Dict.get js p.1 = none := by
            rw [← Option.not_isSome_iff_eq_none, get_isSome]
            exact hn'.1
          rw [this, if_pos rfl]
          simp [Dict.get]
        · have hx' : ¬ p.1 = x := fun e => hx e.symm
          rw [if_neg hx]
          simp [Dict.get, hx']
      · intro k hk
        have hne : ¬ k = p.1 := by rintro rfl; exact hn'.1 hk
        rw [get_set, if_neg hne]
        exact ha k (by simp only [Dict.keys, List.map_cons, List.mem_cons] at hk ⊢; exact Or.inr hk)
  rw [key d [] h (fun _ _ => by simp [Dict.get])]
  simp [Dict.get]

/-- The loaded data of the substance after an object was made: the same keywords, with the dictionaries of the object. -/
theorem C164_stored (c : Cfg) (db : Db) (hn : (db c.main).keys.Nodup) (x : String) :
    ((load c [] db).db c.main).keys = (db c.main).keys ∧ ((load c [] db).db c.main).get x = if x ∈ (db c.main).keys then (load c [] db).kw.get x else none := by
  have hsh : ∀ y, y ∈ shared c [] db ↔ y ∈ (db c.main).keys := by
    intro y
    unfold shared
    rw [List.mem_filter]
    simp [Dict.keys]
  have key : ∀ (m : List Allo) (s : St), (s.db c.main).keys = (db c.main).keys → (∀ y ∈ (db c.main).keys, (s.kw.get y).isSome) →
      ((s.db c.main).get x = if x ∈ (db c.main).keys then s.kw.get x else none) →
      ((m.foldl (step c (shared c [] db)) s).db c.main).keys = (db c.main).keys ∧
      ((m.foldl (step c (shared c [] db)) s).db c.main).get x = if x ∈ (db c.main).keys then (m.foldl (step c (shared c [] db)) s).kw.get x else none := by
    intro m
    induction m with
    | nil => intro s h1 _ h3; exact ⟨h1, h3⟩
    | cons a m ih =>
      intro s h1 h2 _
      rw [List.foldl_cons]
      have h2' : ∀ y ∈ (db c.main).keys, ((step c (shared c [] db) s a).kw.get y).isSome := fun y hy => some_mergeKw _ _ _ (h2 y hy)
      have hd : (step c (shared c [] db) s a).db c.main = sync (shared c [] db) (step c (shared c [] db) s a).kw (s.db c.main) := by simp [step]
      refine ih _ (by rw [hd, keys_sync, h1]) h2' ?_
      rw [hd, get_sync]
      by_cases hx : x ∈ (db c.main).keys
      · obtain ⟨v, hv⟩ := Option.isSome_iff_exists.1 ((get_isSome (s.db c.main) x).2 (h1 ▸ hx))
        obtain ⟨w, hw⟩ := Option.isSome_iff_exists.1 (h2' x hx)
        rw [if_pos hx, hv, hw, Option.map_some, if_pos ((hsh x).2 hx)]
        rfl
      · have : (s.db c.main).get x = none := by
          rw [← Option.not_isSome_iff_eq_none, get_isSome, h1]
          exact hx
        rw [if_neg hx, this]
        rfl
  refine key c.allos (start c [] db) rfl (fun y hy => ?_) ?_
  · show ((mergeKw [] (db c.main)).get y).isSome
    rw [mergeKw_nil _ hn]
    exact (get_isSome _ _).2 hy
  · show (db c.main).get x = if x ∈ (db c.main).keys then (mergeKw [] (db c.main)).get x else none
    rw [mergeKw_nil _ hn]
    by_cases hx : x ∈ (db c.main).keys
    · rw [if_pos hx]
    · rw [if_neg hx, ← Option.not_isSome_iff_eq_none, get_isSome]
      exact hx

example : (tinDb tin.main).keys.Nodup ∧ "P" ∈ (tinDb tin.main).keys ∧ ((load tin [] tinDb).db tin.main).get "P" = (load tin [] tinDb).kw.get "P" := by decide +kernel

/-- **C164.** A second object of the same substance has the methods of the first, in spite of the data written by the first, if the
substance is not one of its allotropes. -/
theorem C164_again (c : Cfg) (db : Db) (h : ∀ a ∈ c.allos, a.cas ≠ c.main) (hn : (db c.main).keys.Nodup) (x n : String) :
    val (load c [] (load c [] db).db).kw x n = val (load c [] db).kw x n ∧ (load c [] (load c [] db).db).auto = (load c [] db).auto := by
  have hm : methods c (load c [] db).db = methods c db := by
    unfold methods
    apply List.flatMap_congr
    intro a ha
    rw [C164_others c [] db a.cas (h a ha)]
  obtain ⟨s1, s2⟩ := C164_stored c db hn x
  constructor
  · rw [C164_methods c [] _ h, C164_methods c [] db h, hm]
    have e : val (mergeKw [] ((load c [] db).db c.main)) x n = if x ∈ (db c.main).keys then val (load c [] db).kw x n else none := by
      unfold val
      rw [mergeKw_nil _ (s1 ▸ hn), s2]
      split_ifs <;> rfl
    rw [e]
    by_cases hx : x ∈ (db c.main).keys
    · rw [if_pos hx, C164_methods c [] db h]
      cases lastT (methods c db) x n <;> simp
    · have : val (mergeKw [] (db c.main)) x n = none := by
        unfold val
        rw [mergeKw_nil _ hn, Option.not_isSome_iff_eq_none.1 (fun h => hx ((get_isSome _ _).1 h))]
        rfl
      rw [if_neg hx, this]
  · have h1 := (fold_spec c (shared c [] (load c [] db).db) db (start c [] (load c [] db).db) c.allos h (fun k hk => C164_others c [] db k hk) "" "").2
    have h2 := (fold_spec c (shared c [] db) db (start c [] db) c.allos h (fun _ _ => rfl) "" "").2
    exact h1.trans h2.symm

example : (∀ a ∈ tin.allos, a.cas ≠ tin.main) ∧ (tinDb tin.main).keys.Nodup ∧ val (load tin [] (load tin [] tinDb).db).kw "P" "UNARY beta" = some ⟨286, 505, 3⟩ := by decide +kernel

/-- **C164 fails.** A dictionary given by the caller receives the methods of the substance and of its allotropes. -/
theorem C164_caller_fails : (load tin [("P", [("mine", ⟨1, 2, 7⟩)])] tinDb).kw =
    [("P", [("mine", ⟨1, 2, 7⟩), ("UNARY", ⟨298, 505, 1⟩), ("UNARY beta", ⟨286, 505, 3⟩), ("UNARY alpha", ⟨100, 286, 2⟩)])] ∧
    (load tin [("P", [("mine", ⟨1, 2, 7⟩)])] tinDb).db "Sn" = tinDb "Sn" := by decide +kernel

end Verif.Allotropes
