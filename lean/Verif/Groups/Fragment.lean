import Mathlib.Data.Finset.Card
import Mathlib.Data.Finset.Dedup
import Mathlib.Data.List.Sort
import Mathlib.Data.Prod.Lex
import Mathlib.Algebra.BigOperators.Group.List.Basic
import Mathlib.Tactic.Common
import Mathlib.Data.Nat.Choose.Basic

/-!
# Fragmentation into groups (`thermo/group_contribution/group_contribution_base.py` 171-613)

* C18: `smarts_fragment_priority`: assigned matches are disjoint, the counts are those of the
  assignment, success means full coverage and balanced hydrogens.
* C19: `smarts_fragment`: success, counts and overlap removal.
* C53: the prioritised assignment is greedy in priority.

RDKit is not modelled: the substructure matches of every pattern, the number of hydrogens and the
hydrogens on each atom are inputs. A match is the list of the atom indexes it covers.
-/

namespace Verif.Fragment

abbrev Match := List ℕ

/-- The fields of a catalogue entry that are read (83-96), with its hits in the molecule without and
with explicit hydrogens (262-268). `hOnly` is `len(obj.atoms) == 1 and 'H' in obj.atoms`; `multi` is
whether the pattern is a list of patterns. -/
structure Grp where
  id : ℕ
  priority : ℤ
  atomsH : ℕ
  hOnly : Bool
  hFromSmarts : Bool
  multi : Bool
  hits : List Match
  hitsHs : List Match
  deriving DecidableEq

/-- The molecule: number of atoms (`all_atom_idxs = range(n)`, 236-243), number of atoms with explicit
hydrogens (272), hydrogens in the formula (234), hydrogens on each atom (240). -/
structure Mol where
  n : ℕ
  nHs : ℕ
  hCount : ℕ
  hAt : ℕ → ℕ

/-- `hits` of a catalogue entry (260-268). -/
def effHits (g : Grp) : List Match :=
  if g.multi then g.hits
  else if g.hits = [] ∧ g.hOnly then g.hitsHs
  else g.hits

/-- The early return for a molecule of hydrogens only (267-280). -/
def isH2 (mol : Mol) (g : Grp) : Bool :=
  !g.multi && decide (g.hits = []) && g.hOnly && decide (g.hitsHs ≠ []) &&
    decide (mol.nHs = mol.hCount) && decide (mol.hCount = g.atomsH)

/-- `matched_atoms`, `final_group_counts` and `final_assignments`. The last is kept as the list of
assigned `(group, match)` in order of assignment. -/
structure Run where
  matched : Finset ℕ := ∅
  counts : ℕ → ℕ := fun _ => 0
  log : List (ℕ × Match) := []

/-- The body of the inner loop of `run_match` (445-467). -/
def tryMatch (mol : Mol) (ignore : List (ℕ × Match)) (g : Grp) (r : Run) (m : Match) : Run :=
  if m.toFinset ∩ r.matched ≠ ∅ then r
  else if m.toFinset = Finset.range mol.n ∧ mol.hCount ≠ 0 ∧ g.atomsH ≠ mol.hCount then r
  else if (g.id, m) ∈ ignore then r
  else
    { matched := r.matched ∪ m.toFinset
      counts := fun k => if k = g.id then r.counts k + 1 else r.counts k
      log := r.log ++ [(g.id, m)] }

/-- One round of the outer loop (443-467). -/
def runGroup (mol : Mol) (ignore : List (ℕ × Match)) (r : Run) (g : Grp) : Run :=
  (effHits g).foldl (tryMatch mol ignore g) r

/-- `run_match` (437-468). -/
def runMatch (mol : Mol) (byPriority : List Grp) (ignore : List (ℕ × Match)) : Run :=
  byPriority.foldl (runGroup mol ignore) {}

/-- `sorted(zip(priorities, groups), reverse=True)` (287-290): descending in priority, then in id. -/
def byPriority (catalog : List Grp) : List Grp :=
  catalog.insertionSort fun a b => b.priority < a.priority ∨ b.priority = a.priority ∧ b.id ≤ a.id

/-- `group_to_obj[group]` (289). -/
def lookup (catalog : List Grp) (k : ℕ) : Option Grp := catalog.find? (·.id = k)

/-- Hydrogens of one assigned match (369-373, 419-423). -/
def hydrogensOf (mol : Mol) (catalog : List Grp) (p : ℕ × Match) : ℕ :=
  match lookup catalog p.1 with
  | some g => if g.hFromSmarts then (p.2.map mol.hAt).sum else g.atomsH
  | none => 0

/-- `hydrogens_found` (367-373). -/
def hydrogens (mol : Mol) (catalog : List Grp) (r : Run) : ℕ :=
  (r.log.map (hydrogensOf mol catalog)).sum

/-- `heavy_atom_matched and hydrogens_matched` (366-383, 413-426). -/
def good (mol : Mol) (catalog : List Grp) (r : Run) : Bool :=
  decide (mol.n = r.matched.card) && decide (hydrogens mol catalog r = mol.hCount)

/-- `itertools.combinations`. -/
def combinations {α : Type} : ℕ → List α → List (List α)
  | 0, _ => [[]]
  | _ + 1, [] => []
  | k + 1, x :: xs => (combinations k xs).map (x :: ·) ++ combinations (k + 1) xs

/-- `things_to_ignore` (385-388). -/
def things (catalog : List Grp) : List (ℕ × Match) :=
  catalog.flatMap fun g => (effHits g).map fun m => (g.id, m)

/-- The sets of matches to ignore, in the order tried (398-411). -/
def ignoreSets (catalog : List Grp) : List (List (ℕ × Match)) :=
  (([1, 2, 3, 4].flatMap fun k => combinations k (things catalog))).take 5000

/-- The retry loop (402-430): stops at the first success, otherwise keeps the last attempt. -/
def retry (mol : Mol) (catalog : List Grp) : List (List (ℕ × Match)) → Run → Run × Bool
  | [], r => (r, false)
  | ig :: l, _ =>
    let r := runMatch mol (byPriority catalog) ig
    if good mol catalog r then (r, true) else retry mol catalog l r

/-- Atoms in some match (292-295). -/
def covered (catalog : List Grp) : Finset ℕ :=
  ((things catalog).flatMap (·.2)).toFinset

/-- `smarts_fragment_priority` (229-435) on a constructed molecule, with the catalogue of entries that
have a priority (229): assignment and success flag. -/
def fragment (mol : Mol) (catalog : List Grp) : Run × Bool :=
  match catalog.find? (isH2 mol) with
  | some g =>
    ({ matched := ∅, counts := fun k => if k = g.id then 1 else 0, log := [(g.id, [])] }, true)
  | none =>
    let r := runMatch mol (byPriority catalog) []
    if (covered catalog).card ≠ mol.n then (r, false)
    else if good mol catalog r then (r, true)
    else retry mol catalog (ignoreSets catalog) r

/-! ## C18 -/

/-- What every assignment satisfies. -/
structure Consistent (r : Run) : Prop where
  disjoint : r.log.Pairwise fun p q => Disjoint p.2.toFinset q.2.toFinset
  counts : ∀ k, r.counts k = (r.log.filter (·.1 = k)).length
  matched : ∀ i, i ∈ r.matched ↔ ∃ p ∈ r.log, i ∈ p.2

theorem consistent_empty : Consistent {} where
  disjoint := List.Pairwise.nil
  counts := by intro k; rfl
  matched := by intro i; simp

theorem tryMatch_consistent (mol : Mol) (ig : List (ℕ × Match)) (g : Grp) (r : Run) (m : Match)
    (h : Consistent r) : Consistent (tryMatch mol ig g r m) := by
  unfold tryMatch
  by_cases h1 : m.toFinset ∩ r.matched ≠ ∅
  · rw [if_pos h1]; exact h
  rw [if_neg h1]
  by_cases h2 : m.toFinset = Finset.range mol.n ∧ mol.hCount ≠ 0 ∧ g.atomsH ≠ mol.hCount
  · rw [if_pos h2]; exact h
  rw [if_neg h2]
  by_cases h3 : (g.id, m) ∈ ig
  · rw [if_pos h3]; exact h
  rw [if_neg h3]
  rw [not_ne_iff] at h1
  refine ⟨?_, ?_, ?_⟩
  · rw [List.pairwise_append]
    refine ⟨h.disjoint, List.pairwise_singleton _ _, ?_⟩
    intro p hp q hq
    rw [List.mem_singleton] at hq
    subst hq
    rw [Finset.disjoint_left]
    intro i hi hi'
    have : i ∈ m.toFinset ∩ r.matched :=
      Finset.mem_inter.2 ⟨hi', (h.matched i).2 ⟨p, hp, List.mem_toFinset.1 hi⟩⟩
    rw [h1] at this
    exact absurd this (Finset.notMem_empty i)
  · intro k
    simp only [List.filter_append, List.length_append]
    by_cases hk : k = g.id
    · rw [if_pos hk, h.counts k]
      simp [List.filter_cons, hk]
    · rw [if_neg hk, h.counts k]
      have : ¬ g.id = k := fun h => hk h.symm
      simp [List.filter_cons, this]
  · intro i
    simp only [Finset.mem_union, List.mem_toFinset, List.mem_append, List.mem_singleton]
    rw [h.matched i]
    constructor
    · rintro (⟨p, hp, hi⟩ | hi)
      · exact ⟨p, .inl hp, hi⟩
      · exact ⟨(g.id, m), .inr rfl, hi⟩
    · rintro ⟨p, hp | rfl, hi⟩
      · exact .inl ⟨p, hp, hi⟩
      · exact .inr hi

theorem foldl_inv {α β : Type} (P : β → Prop) (f : β → α → β) (h : ∀ b a, P b → P (f b a)) (l : List α)
    (b : β) (hb : P b) : P (l.foldl f b) := by
  induction l generalizing b with
  | nil => exact hb
  | cons a l ih => exact ih _ (h b a hb)

theorem foldl_inv_mem {α β : Type} (P : β → Prop) (f : β → α → β) (l : List α)
    (h : ∀ b, ∀ a ∈ l, P b → P (f b a)) (b : β) (hb : P b) : P (l.foldl f b) := by
  induction l generalizing b with
  | nil => exact hb
  | cons a l ih =>
    exact ih (fun b a ha => h b a (List.mem_cons_of_mem _ ha)) _ (h b a (List.mem_cons_self ..) hb)

theorem runMatch_consistent (mol : Mol) (l : List Grp) (ig : List (ℕ × Match)) :
    Consistent (runMatch mol l ig) :=
  foldl_inv Consistent _ (fun r g h => foldl_inv Consistent _
    (fun r m h => tryMatch_consistent mol ig g r m h) _ _ h) _ _ consistent_empty

theorem retry_cases (mol : Mol) (catalog : List Grp) (l : List (List (ℕ × Match))) (r0 : Run) :
    ((retry mol catalog l r0).2 = true →
      ∃ ig ∈ l, (retry mol catalog l r0).1 = runMatch mol (byPriority catalog) ig ∧
        good mol catalog (retry mol catalog l r0).1 = true) ∧
    ((retry mol catalog l r0).1 = r0 ∨
      ∃ ig ∈ l, (retry mol catalog l r0).1 = runMatch mol (byPriority catalog) ig) := by
  induction l generalizing r0 with
  | nil => exact ⟨fun h => by simp [retry] at h, .inl rfl⟩
  | cons ig l ih =>
    simp only [retry]
    by_cases hg : good mol catalog (runMatch mol (byPriority catalog) ig) = true
    · rw [if_pos hg]
      exact ⟨fun _ => ⟨ig, List.mem_cons_self .., rfl, hg⟩, .inr ⟨ig, List.mem_cons_self .., rfl⟩⟩
    · rw [if_neg hg]
      obtain ⟨h1, h2⟩ := ih (runMatch mol (byPriority catalog) ig)
      refine ⟨fun h => ?_, ?_⟩
      · obtain ⟨ig', hm, h3⟩ := h1 h
        exact ⟨ig', List.mem_cons_of_mem _ hm, h3⟩
      · rcases h2 with h2 | ⟨ig', hm, h3⟩
        · exact .inr ⟨ig, List.mem_cons_self .., h2⟩
        · exact .inr ⟨ig', List.mem_cons_of_mem _ hm, h3⟩

/-- Outside the hydrogen-only return the assignment is one run of `run_match`. -/
theorem fragment_run (mol : Mol) (catalog : List Grp) (hH2 : catalog.find? (isH2 mol) = none) :
    ∃ ig, (fragment mol catalog).1 = runMatch mol (byPriority catalog) ig := by
  unfold fragment
  rw [hH2]
  dsimp only
  by_cases h1 : (covered catalog).card ≠ mol.n
  · rw [if_pos h1]; exact ⟨[], rfl⟩
  rw [if_neg h1]
  by_cases h2 : good mol catalog (runMatch mol (byPriority catalog) []) = true
  · rw [if_pos h2]; exact ⟨[], rfl⟩
  rw [if_neg h2]
  rcases (retry_cases mol catalog (ignoreSets catalog) (runMatch mol (byPriority catalog) [])).2 with
    h | ⟨ig, _, h⟩
  · exact ⟨[], h⟩
  · exact ⟨ig, h⟩

/-- **C18.** Whether or not it succeeds, the assigned atom sets are pairwise disjoint, each count is the
number of assigned matches of the group and the matched atoms are those of the assigned matches. -/
theorem C18_assignment (mol : Mol) (catalog : List Grp) : Consistent (fragment mol catalog).1 := by
  cases hH2 : catalog.find? (isH2 mol) with
  | none =>
    obtain ⟨ig, h⟩ := fragment_run mol catalog hH2
    rw [h]
    exact runMatch_consistent mol _ ig
  | some g =>
    unfold fragment
    rw [hH2]
    dsimp only
    refine ⟨List.pairwise_singleton _ _, ?_, ?_⟩
    · intro k
      by_cases hk : k = g.id
      · simp [hk]
      · have : ¬ g.id = k := fun h => hk h.symm
        simp [hk, this]
    · intro i; simp

theorem tryMatch_subset (mol : Mol) (ig : List (ℕ × Match)) (g : Grp) (r : Run) (m : Match)
    (hm : ∀ i ∈ m, i < mol.n) (h : r.matched ⊆ Finset.range mol.n) :
    (tryMatch mol ig g r m).matched ⊆ Finset.range mol.n := by
  unfold tryMatch
  by_cases h1 : m.toFinset ∩ r.matched ≠ ∅
  · rw [if_pos h1]; exact h
  rw [if_neg h1]
  by_cases h2 : m.toFinset = Finset.range mol.n ∧ mol.hCount ≠ 0 ∧ g.atomsH ≠ mol.hCount
  · rw [if_pos h2]; exact h
  rw [if_neg h2]
  by_cases h3 : (g.id, m) ∈ ig
  · rw [if_pos h3]; exact h
  rw [if_neg h3]
  refine Finset.union_subset h fun i hi => ?_
  rw [Finset.mem_range]
  exact hm i (List.mem_toFinset.1 hi)

theorem fragment_good (mol : Mol) (catalog : List Grp) (hH2 : catalog.find? (isH2 mol) = none)
    (hs : (fragment mol catalog).2 = true) : good mol catalog (fragment mol catalog).1 = true := by
  unfold fragment at *
  rw [hH2] at *
  dsimp only at *
  by_cases h1 : (covered catalog).card ≠ mol.n
  · rw [if_pos h1] at hs; exact absurd hs (by simp)
  rw [if_neg h1] at hs ⊢
  by_cases h2 : good mol catalog (runMatch mol (byPriority catalog) []) = true
  · rw [if_pos h2]; exact h2
  rw [if_neg h2] at hs ⊢
  obtain ⟨ig, _, _, h⟩ := (retry_cases mol catalog _ _).1 hs
  exact h

/-- **C18 (partial).** When it reports success and every recorded match lies in the molecule, every
heavy atom is in exactly one assigned match and the hydrogens of the assigned groups add up to those of
the formula. Missing: matches recorded in the molecule with explicit hydrogens for groups that consist
of hydrogen only (`C18_unmatched_atom_success`). -/
theorem C18_success_partial (mol : Mol) (catalog : List Grp)
    (hin : ∀ g ∈ catalog, ∀ m ∈ effHits g, ∀ i ∈ m, i < mol.n)
    (hH2 : catalog.find? (isH2 mol) = none) (hs : (fragment mol catalog).2 = true) :
    (∀ i < mol.n, ∃ p ∈ (fragment mol catalog).1.log, i ∈ p.2) ∧
    (∀ i, ∀ p ∈ (fragment mol catalog).1.log, i ∈ p.2 → i < mol.n) ∧
    (((fragment mol catalog).1.log.map (hydrogensOf mol catalog)).sum = mol.hCount) := by
  obtain ⟨ig, hrun⟩ := fragment_run mol catalog hH2
  have hc := C18_assignment mol catalog
  have hg := fragment_good mol catalog hH2 hs
  unfold good at hg
  rw [Bool.and_eq_true, decide_eq_true_eq, decide_eq_true_eq] at hg
  have hsub : (fragment mol catalog).1.matched ⊆ Finset.range mol.n := by
    rw [hrun]
    unfold runMatch
    refine foldl_inv_mem (fun r : Run => r.matched ⊆ Finset.range mol.n) _ _ ?_ _ (by simp)
    intro r g hgm h
    have hgc : g ∈ catalog := (List.mem_insertionSort _).1 hgm
    unfold runGroup
    refine foldl_inv_mem (fun r : Run => r.matched ⊆ Finset.range mol.n) _ _ ?_ _ h
    intro r m hm h
    exact tryMatch_subset mol ig g r m (hin g hgc m hm) h
  have heq : (fragment mol catalog).1.matched = Finset.range mol.n := by
    refine Finset.eq_of_subset_of_card_le hsub ?_
    rw [Finset.card_range, ← hg.1]
  refine ⟨fun i hi => (hc.matched i).1 (by rw [heq]; exact Finset.mem_range.2 hi), ?_, hg.2⟩
  intro i p hp hi
  have := (hc.matched i).2 ⟨p, hp, hi⟩
  rw [heq] at this
  exact Finset.mem_range.1 this

theorem combinations_complete {α : Type} : ∀ (l s : List α), s.Sublist l → s ∈ combinations s.length l := by
  intro l s h
  induction h with
  | slnil => simp [combinations]
  | @cons s l a h ih =>
    cases s with
    | nil => simp [combinations]
    | cons b s => simp only [List.length_cons, combinations, List.mem_append]; right; exact ih
  | @cons_cons s l a h ih =>
    simp only [List.length_cons, combinations, List.mem_append, List.mem_map]
    exact .inl ⟨s, ih, rfl⟩

theorem combinations_length {α : Type} : ∀ (k : ℕ) (l : List α), (combinations k l).length = l.length.choose k
  | 0, l => by simp [combinations]
  | k + 1, [] => by simp [combinations]
  | k + 1, x :: xs => by
    simp only [combinations, List.length_append, List.length_map, List.length_cons, combinations_length k xs,
      combinations_length (k + 1) xs, Nat.choose_succ_succ]

theorem retry_finds (mol : Mol) (catalog : List Grp) (ig : List (ℕ × Match))
    (hg : good mol catalog (runMatch mol (byPriority catalog) ig) = true) :
    ∀ (l : List (List (ℕ × Match))) (r : Run), ig ∈ l → (retry mol catalog l r).2 = true := by
  intro l
  induction l with
  | nil => intro r h; simp at h
  | cons x l ih =>
    intro r h
    unfold retry
    dsimp only
    by_cases hx : good mol catalog (runMatch mol (byPriority catalog) x) = true
    · rw [if_pos hx]
    · rw [if_neg hx]
      rcases List.mem_cons.1 h with rfl | h
      · exact absurd hg hx
      · exact ih _ h

/-- **C18.** The search is complete within its limits: if leaving out up to four matches makes the greedy assignment cover the molecule, and
there are at most 5000 ways to leave out up to four, success is reported. -/
theorem C18_search_complete (mol : Mol) (catalog : List Grp) (hH2 : catalog.find? (isH2 mol) = none)
    (hcov : (covered catalog).card = mol.n) (ig : List (ℕ × Match)) (hsub : ig.Sublist (things catalog)) (hlen : ig.length ≤ 4)
    (hnum : ((things catalog).length.choose 1 + (things catalog).length.choose 2 + (things catalog).length.choose 3
      + (things catalog).length.choose 4) ≤ 5000)
    (hg : good mol catalog (runMatch mol (byPriority catalog) ig) = true) : (fragment mol catalog).2 = true := by
  unfold fragment
  rw [hH2]
  dsimp only
  rw [if_neg (by simpa using hcov)]
  by_cases h0 : good mol catalog (runMatch mol (byPriority catalog) []) = true
  · rw [if_pos h0]
  · rw [if_neg h0]
    refine retry_finds mol catalog ig hg _ _ ?_
    unfold ignoreSets
    rw [List.take_of_length_le]
    · rw [List.mem_flatMap]
      refine ⟨ig.length, ?_, combinations_complete _ _ hsub⟩
      have : ig.length ≠ 0 := by
        intro h
        rw [List.length_eq_zero_iff] at h
        subst h
        exact h0 hg
      simp only [List.mem_cons, List.not_mem_nil, or_false]
      omega
    · simp only [List.flatMap_cons, List.flatMap_nil, List.length_append, combinations_length, List.length_nil]
      omega

/-- Propane: two methyl groups and one methylene group. -/
def propane : Mol := ⟨3, 11, 8, fun i => if i = 1 then 2 else 3⟩
def alkanes : List Grp :=
  [⟨1, 103, 3, false, false, false, [[0], [2]], []⟩, ⟨2, 102, 2, false, false, false, [[1]], []⟩]

example : (fragment propane alkanes).2 = true ∧ (fragment propane alkanes).1.counts 1 = 2 ∧
    (∀ g ∈ alkanes, ∀ m ∈ effHits g, ∀ i ∈ m, i < propane.n) ∧
    alkanes.find? (isH2 propane) = none := by decide +kernel

/-- A group of two atoms that has to be left out for the rest to fit. -/
def greedyTrap : List Grp := ⟨5, 500, 4, false, false, false, [[0, 1]], []⟩ :: alkanes

example : (fragment propane greedyTrap).2 = true :=
  C18_search_complete propane greedyTrap (by decide +kernel) (by decide +kernel) [(5, [0, 1])] (by decide +kernel) (by decide)
    (by decide +kernel) (by decide +kernel)

example : good propane greedyTrap (runMatch propane (byPriority greedyTrap) []) = false := by decide +kernel

/-- **C18.** On the early return the molecule has no atom but hydrogens. -/
theorem C18_hydrogen_only (mol : Mol) (catalog : List Grp) (g : Grp)
    (h : catalog.find? (isH2 mol) = some g) :
    (fragment mol catalog).2 = true ∧ mol.nHs = mol.hCount ∧ mol.hCount = g.atomsH := by
  have hg := List.find?_some h
  unfold isH2 at hg
  simp only [Bool.and_eq_true, decide_eq_true_eq] at hg
  unfold fragment
  rw [h]
  exact ⟨rfl, hg.1.2, hg.2⟩

example : (⟨2, 2, 2, fun _ => 1⟩ : Mol).nHs = 2 ∧
    [(⟨7, 1, 2, true, false, false, [], [[0, 1]]⟩ : Grp)].find?
      (isH2 ⟨2, 2, 2, fun _ => 1⟩) ≠ none := by decide +kernel

/-- **C18, the claim fails** for a catalogue with a hydrogen-only group: its matches are atom indexes of
the molecule with explicit hydrogens and are counted as heavy atoms. Hydrogen chloride (one heavy atom,
one hydrogen) is reported as fragmented although its chlorine is in no match. -/
theorem C18_unmatched_atom_success :
    ∃ (mol : Mol) (catalog : List Grp), (fragment mol catalog).2 = true ∧ 0 < mol.n ∧
      ∀ p ∈ (fragment mol catalog).1.log, 0 ∉ p.2 := by
  refine ⟨⟨1, 2, 1, fun _ => 1⟩, [⟨7, 1, 1, true, false, false, [], [[1]]⟩], ?_⟩
  decide +kernel

/-! ## C53: greedy in priority -/

/-- The order of the catalogue after sorting. -/
def Before (a b : Grp) : Prop := b.priority < a.priority ∨ b.priority = a.priority ∧ b.id ≤ a.id

instance : DecidableRel Before := fun a b => by unfold Before; infer_instance

instance : Std.Total Before := ⟨fun a b => by unfold Before; omega⟩
instance : IsTrans Grp Before := ⟨fun a b c => by unfold Before; omega⟩

theorem byPriority_sorted (catalog : List Grp) : (byPriority catalog).Pairwise Before :=
  List.pairwise_insertionSort Before catalog

/-- A hit is settled: assigned, refused because the group would be the whole molecule with the wrong
hydrogens, or overlapping an assigned match of an entry sorted no later. -/
def Settled (mol : Mol) (catalog : List Grp) (r : Run) (g : Grp) (m : Match) : Prop :=
  (g.id, m) ∈ r.log ∨
  (m.toFinset = Finset.range mol.n ∧ mol.hCount ≠ 0 ∧ g.atomsH ≠ mol.hCount) ∨
  ∃ h ∈ catalog, Before h g ∧ ∃ m', (h.id, m') ∈ r.log ∧ ∃ i, i ∈ m ∧ i ∈ m'

theorem tryMatch_log (mol : Mol) (ig : List (ℕ × Match)) (g : Grp) (r : Run) (m : Match) :
    ∃ l, (tryMatch mol ig g r m).log = r.log ++ l ∧ ∀ p ∈ l, p.1 = g.id := by
  unfold tryMatch
  by_cases h1 : m.toFinset ∩ r.matched ≠ ∅
  · rw [if_pos h1]; exact ⟨[], by simp⟩
  rw [if_neg h1]
  by_cases h2 : m.toFinset = Finset.range mol.n ∧ mol.hCount ≠ 0 ∧ g.atomsH ≠ mol.hCount
  · rw [if_pos h2]; exact ⟨[], by simp⟩
  rw [if_neg h2]
  by_cases h3 : (g.id, m) ∈ ig
  · rw [if_pos h3]; exact ⟨[], by simp⟩
  rw [if_neg h3]
  exact ⟨[(g.id, m)], rfl, by simp⟩

theorem settled_mono {mol : Mol} {catalog : List Grp} {r : Run} {g : Grp} {m : Match} {r' : Run}
    {l : List (ℕ × Match)} (h : Settled mol catalog r g m) (hl : r'.log = r.log ++ l) :
    Settled mol catalog r' g m := by
  rcases h with h | h | ⟨x, hx, hb, m', hm', i, hi⟩
  · exact .inl (by rw [hl]; exact List.mem_append_left _ h)
  · exact .inr (.inl h)
  · exact .inr (.inr ⟨x, hx, hb, m', by rw [hl]; exact List.mem_append_left _ hm', i, hi⟩)

/-- Invariant of the loops of `run_match` without ignored matches: hits seen are settled and every
assigned match belongs to an entry seen. -/
structure Inv (mol : Mol) (catalog seen : List Grp) (r : Run) : Prop where
  cons : Consistent r
  from_seen : ∀ p ∈ r.log, ∃ h ∈ seen, h.id = p.1
  settled : ∀ g ∈ seen, ∀ m ∈ effHits g, Settled mol catalog r g m

theorem runGroup_settles (mol : Mol) (catalog seen : List Grp) (g : Grp) (hg : g ∈ catalog)
    (hseen : ∀ h ∈ seen, h ∈ catalog ∧ Before h g) (ms : List Match) :
    ∀ r : Run, Consistent r → (∀ p ∈ r.log, ∃ h ∈ seen ++ [g], h.id = p.1) →
      let r' := ms.foldl (tryMatch mol [] g) r
      Consistent r' ∧ (∀ p ∈ r'.log, ∃ h ∈ seen ++ [g], h.id = p.1) ∧
      (∃ l, r'.log = r.log ++ l) ∧ ∀ m ∈ ms, Settled mol catalog r' g m := by
  induction ms with
  | nil => intro r hc hs; exact ⟨hc, hs, ⟨[], by simp⟩, by simp⟩
  | cons m ms ih =>
    intro r hc hs
    simp only [List.foldl_cons]
    have hc' := tryMatch_consistent mol [] g r m hc
    obtain ⟨l, hl, hlg⟩ := tryMatch_log mol [] g r m
    have hs' : ∀ p ∈ (tryMatch mol [] g r m).log, ∃ h ∈ seen ++ [g], h.id = p.1 := by
      intro p hp
      rw [hl, List.mem_append] at hp
      rcases hp with hp | hp
      · exact hs p hp
      · exact ⟨g, by simp, (hlg p hp).symm⟩
    obtain ⟨h1, h2, ⟨l2, h3⟩, h4⟩ := ih _ hc' hs'
    refine ⟨h1, h2, ⟨l ++ l2, by rw [h3, hl, List.append_assoc]⟩, ?_⟩
    intro m' hm'
    rcases List.mem_cons.1 hm' with rfl | hm'
    · refine settled_mono (r := tryMatch mol [] g r m') ?_ h3
      by_cases c1 : m'.toFinset ∩ r.matched ≠ ∅
      · obtain ⟨i, hi⟩ := Finset.nonempty_iff_ne_empty.2 c1
        rw [Finset.mem_inter, List.mem_toFinset] at hi
        obtain ⟨p, hp, hip⟩ := (hc.matched i).1 hi.2
        obtain ⟨h, hh, hid⟩ := hs p hp
        refine .inr (.inr ?_)
        have hb : h ∈ catalog ∧ Before h g := by
          rcases List.mem_append.1 hh with hh | hh
          · exact hseen h hh
          · rw [List.mem_singleton] at hh; subst hh
            exact ⟨hg, .inr ⟨rfl, le_rfl⟩⟩
        refine ⟨h, hb.1, hb.2, p.2, ?_, i, hi.1, hip⟩
        rw [hl, hid]
        exact List.mem_append_left _ hp
      · by_cases c2 : m'.toFinset = Finset.range mol.n ∧ mol.hCount ≠ 0 ∧ g.atomsH ≠ mol.hCount
        · exact .inr (.inl c2)
        · left
          unfold tryMatch
          rw [if_neg c1, if_neg c2, if_neg (by simp)]
          simp
    · exact h4 m' hm'

theorem runMatch_settles (mol : Mol) (catalog : List Grp) (todo seen : List Grp)
    (hsub : ∀ h ∈ seen ++ todo, h ∈ catalog) (hsort : (seen ++ todo).Pairwise Before) (r : Run)
    (hi : Inv mol catalog seen r) : Inv mol catalog (seen ++ todo) (todo.foldl (runGroup mol []) r) := by
  induction todo generalizing seen r with
  | nil => simpa using hi
  | cons g todo ih =>
    have hseen : ∀ h ∈ seen, h ∈ catalog ∧ Before h g := by
      intro h hh
      refine ⟨hsub h (List.mem_append_left _ hh), ?_⟩
      rw [List.pairwise_append] at hsort
      exact hsort.2.2 h hh g (List.mem_cons_self ..)
    have hrw : seen ++ g :: todo = (seen ++ [g]) ++ todo := by simp
    obtain ⟨h1, h2, ⟨l, h3⟩, h4⟩ := runGroup_settles mol catalog seen g (hsub g (by simp)) hseen
      (effHits g) r hi.cons (fun p hp => by
        obtain ⟨h, hh, he⟩ := hi.from_seen p hp
        exact ⟨h, List.mem_append_left _ hh, he⟩)
    rw [hrw]
    refine ih (seen ++ [g]) (by rw [← hrw]; exact hsub) (by rw [← hrw]; exact hsort) _ ⟨h1, h2, ?_⟩
    intro x hx m hm
    rcases List.mem_append.1 hx with hx | hx
    · exact settled_mono (hi.settled x hx m hm) h3
    · rw [List.mem_singleton] at hx; subst hx
      exact h4 m hm

/-- **C53.** In the first attempt (which is the result whenever it succeeds) a match is left out only if
its group would be the whole molecule with the wrong number of hydrogens or it overlaps an assigned match
of a group whose priority is not lower (and whose id is not lower at equal priority). -/
theorem C53_greedy (mol : Mol) (catalog : List Grp) (g : Grp) (hg : g ∈ catalog) (m : Match)
    (hm : m ∈ effHits g) :
    Settled mol catalog (runMatch mol (byPriority catalog) []) g m := by
  have h := runMatch_settles mol catalog (byPriority catalog) []
    (fun h hh => (List.mem_insertionSort _).1 (List.mem_append.1 hh |>.resolve_left (by simp)))
    (by simpa using byPriority_sorted catalog)
    {} ⟨consistent_empty, by simp, by simp⟩
  exact h.settled g (by
    simp only [List.nil_append]
    exact (List.mem_insertionSort _).2 hg) m hm

/-- A larger group of higher priority takes the atoms of the smaller ones. -/
example : (runMatch propane (byPriority
      [⟨1, 103, 3, false, false, false, [[0], [2]], []⟩, ⟨9, 500, 5, false, false, false, [[0, 1]], []⟩]) []).log
    = [(9, [0, 1]), (1, [2])] := by decide +kernel

/-! ## C19: `smarts_fragment` -/

/-- `all_matches` in order of insertion. -/
abbrev Table := List (ℕ × List Match)

/-- The concatenation of all matches (550-553, 584-587, 602-605). -/
def flat (t : Table) : List ℕ := t.flatMap fun p => p.2.flatten

/-- `[i for i, c in Counter(matched_atoms).items() if c > 1]` (556, 589), in order of first occurrence. -/
def dups (l : List ℕ) : List ℕ := (l.reverse.dedup.reverse).filter fun i => 1 < l.count i

/-- `dup_smart_matches` (561-565): group, index, size. -/
def containing (t : Table) (d : ℕ) : List (ℕ × ℕ × ℕ) :=
  t.flatMap fun p => (p.2.zipIdx.filter fun q => d ∈ q.1).map fun q => (p.1, q.2, q.1.length)

/-- `del all_matches[group][idx]` (581); `none` is `IndexError`. -/
def delAt (t : Table) (group idx : ℕ) : Option Table :=
  t.mapM fun p => if p.1 = group then
    (if idx < p.2.length then some (p.1, p.2.eraseIdx idx) else none) else some p

/-- The deletions of one round (578-582), with indexes taken before the round. -/
def delAll (t : Table) (maxSize : ℕ) : List (ℕ × ℕ × ℕ) → Option Table
  | [] => some t
  | (g, i, s) :: l =>
    if s ≠ maxSize then
      match delAt t g i with
      | some t' => delAll t' maxSize l
      | none => none
    else delAll t maxSize l

/-- The loop (558-590) with `k` rounds left; `none` is an exception. -/
def dedupLoop : ℕ → Table → Option Table
  | 0, t => some t
  | k + 1, t =>
    match dups (flat t) with
    | [] => some t
    | d :: _ =>
      let c := containing t d
      let sizes := c.map fun x => x.2.2
      let maxSize := sizes.foldl max 0
      if sizes.count maxSize > 1 then dedupLoop k t
      else
        match delAll t maxSize c with
        | some t' => dedupLoop k t'
        | none => none

/-- `smarts_fragment` (533-613): the returned counts, the surviving matches and the success flag. -/
def simple (n : ℕ) (hits : Table) (deduplicate : Bool) : Option (List (ℕ × ℕ) × Table × Bool) :=
  let all := hits.filter fun p => p.2 ≠ []
  let counts := all.map fun p => (p.1, p.2.length)
  match (if deduplicate then dedupLoop 100 all else some all) with
  | none => none
  | some t =>
    some (counts, t, decide ((flat t).toFinset.card = n) && decide ((flat t).length = n))

theorem delAt_flat {t t' : Table} {g i : ℕ} (h : delAt t g i = some t') :
    ∀ x ∈ flat t', x ∈ flat t := by
  induction t generalizing t' with
  | nil => simp [delAt] at h; subst h; simp
  | cons p t ih =>
    unfold delAt at h ih
    rw [List.mapM_cons] at h
    simp only [Option.bind_eq_bind, Option.bind_eq_some_iff, Option.pure_def, Option.some.injEq] at h
    obtain ⟨q, hq, t2, ht2, rfl⟩ := h
    intro x hx
    simp only [flat, List.flatMap_cons, List.mem_append] at hx ⊢
    rcases hx with hx | hx
    · left
      by_cases hg : p.1 = g
      · rw [if_pos hg] at hq
        by_cases hl : i < p.2.length
        · rw [if_pos hl] at hq
          cases hq
          rw [List.mem_flatten] at hx ⊢
          obtain ⟨m, hm, hxm⟩ := hx
          exact ⟨m, List.mem_of_mem_eraseIdx hm, hxm⟩
        · rw [if_neg hl] at hq; exact absurd hq (by simp)
      · rw [if_neg hg] at hq
        cases hq
        exact hx
    · right
      exact ih ht2 x hx

theorem delAll_flat {k : ℕ} (l : List (ℕ × ℕ × ℕ)) {t t' : Table} (h : delAll t k l = some t') :
    ∀ x ∈ flat t', x ∈ flat t := by
  induction l generalizing t with
  | nil => simp [delAll] at h; subst h; exact fun x hx => hx
  | cons c l ih =>
    obtain ⟨g, i, s⟩ := c
    unfold delAll at h
    by_cases hs : s ≠ k
    · rw [if_pos hs] at h
      cases hd : delAt t g i with
      | none => rw [hd] at h; exact absurd h (by simp)
      | some t2 =>
        rw [hd] at h
        exact fun x hx => delAt_flat hd x (ih h x hx)
    · rw [if_neg hs] at h
      exact ih h

theorem dedupLoop_flat (k : ℕ) {t t' : Table} (h : dedupLoop k t = some t') :
    ∀ x ∈ flat t', x ∈ flat t := by
  induction k generalizing t with
  | zero => simp [dedupLoop] at h; subst h; exact fun x hx => hx
  | succ k ih =>
    unfold dedupLoop at h
    cases hd : dups (flat t) with
    | nil => rw [hd] at h; cases h; exact fun x hx => hx
    | cons d l =>
      rw [hd] at h
      dsimp only at h
      split at h
      · exact ih h
      · cases ha : delAll t (((containing t d).map fun x => x.2.2).foldl max 0) (containing t d) with
        | none => rw [ha] at h; exact absurd h (by simp)
        | some t2 =>
          rw [ha] at h
          exact fun x hx => delAll_flat _ ha x (ih h x hx)

theorem flat_filter (hits : Table) : flat (hits.filter fun p => p.2 ≠ []) = flat hits := by
  induction hits with
  | nil => rfl
  | cons p l ih =>
    unfold flat at *
    simp only [ne_eq, decide_not] at ih
    by_cases h : p.2 = []
    · simp [h, ih]
    · simp [h, ih]

/-- Parts of a result. -/
theorem simple_parts {n : ℕ} {hits : Table} {d : Bool} {counts : List (ℕ × ℕ)} {t : Table} {b : Bool}
    (h : simple n hits d = some (counts, t, b)) :
    (if d then dedupLoop 100 (hits.filter fun p => p.2 ≠ []) else
      some (hits.filter fun p => p.2 ≠ [])) = some t ∧
    counts = (hits.filter fun p => p.2 ≠ []).map (fun p => (p.1, p.2.length)) ∧
    b = (decide ((flat t).toFinset.card = n) && decide ((flat t).length = n)) := by
  unfold simple at h
  dsimp only at h
  cases hc : (if d then dedupLoop 100 (hits.filter fun p => p.2 ≠ []) else
      some (hits.filter fun p => p.2 ≠ [])) with
  | none => rw [hc] at h; exact absurd h (by simp)
  | some t' =>
    rw [hc] at h
    simp only [Option.some.injEq, Prod.mk.injEq] at h
    obtain ⟨h1, rfl, h3⟩ := h
    exact ⟨rfl, h1.symm, h3.symm⟩

/-- **C19.** When success is reported, the surviving matches cover each heavy atom exactly once. -/
theorem C19_covers_once (n : ℕ) (hits : Table) (d : Bool) (counts : List (ℕ × ℕ)) (t : Table)
    (hin : ∀ i ∈ flat hits, i < n) (h : simple n hits d = some (counts, t, true)) :
    (∀ i < n, (flat t).count i = 1) ∧ ∀ i, n ≤ i → (flat t).count i = 0 := by
  obtain ⟨h1, _, h3⟩ := simple_parts h
  have hs := h3.symm
  rw [Bool.and_eq_true, decide_eq_true_eq, decide_eq_true_eq] at hs
  have hin' : ∀ i ∈ flat t, i < n := by
    intro i hi
    refine hin i ?_
    rw [← flat_filter]
    cases d with
    | false => simp only [Bool.false_eq_true, if_false, Option.some.injEq] at h1; rw [h1]; exact hi
    | true => simp only [if_true] at h1; exact dedupLoop_flat 100 h1 i hi
  have hnd : (flat t).Nodup := by
    have := hs.1.trans hs.2.symm
    rw [List.card_toFinset] at this
    have h2 := List.dedup_eq_self.1 ((List.dedup_sublist (flat t)).eq_of_length this)
    exact h2
  have hall : (flat t).toFinset = Finset.range n := by
    refine Finset.eq_of_subset_of_card_le
      (fun i hi => Finset.mem_range.2 (hin' i (List.mem_toFinset.1 hi))) ?_
    rw [Finset.card_range, hs.1]
  refine ⟨fun i hi => List.count_eq_one_of_mem hnd ?_, fun i hi => List.count_eq_zero_of_not_mem ?_⟩
  · rw [← List.mem_toFinset, hall]; exact Finset.mem_range.2 hi
  · intro hm
    exact absurd (hin' i hm) (Nat.not_lt.2 hi)

/-- **C19 (partial).** If no atom is in two matches, or overlap removal is off, the returned counts are
those of the surviving matches, which are all of them. Missing: overlaps that are removed
(`C19_counts_before_removal`). -/
theorem C19_counts_partial (n : ℕ) (hits : Table) (d : Bool)
    (hno : d = false ∨ (flat hits).Nodup) :
    ∃ b, simple n hits d = some ((hits.filter fun p => p.2 ≠ []).map (fun p => (p.1, p.2.length)),
      hits.filter (fun p => p.2 ≠ []), b) := by
  unfold simple
  rcases hno with rfl | hnd
  · exact ⟨_, rfl⟩
  · have hd : dups (flat (hits.filter fun p => p.2 ≠ [])) = [] := by
      rw [flat_filter]
      unfold dups
      rw [List.filter_eq_nil_iff]
      intro i _
      have := List.nodup_iff_count_le_one.1 hnd i
      simpa using this
    have hl : dedupLoop 100 (hits.filter fun p => p.2 ≠ []) = some (hits.filter fun p => p.2 ≠ []) := by
      show dedupLoop (99 + 1) _ = _
      unfold dedupLoop
      rw [hd]
    dsimp only
    rw [hl]
    cases d <;> exact ⟨_, rfl⟩

example : simple 3 [(1, [[0], [2]]), (2, [[1]]), (3, [])] true
    = some ([(1, 2), (2, 1)], [(1, [[0], [2]]), (2, [[1]])], true) := by decide +kernel

/-- **C19, the claim fails** when an overlap is removed: the counts are taken before the removal. Atoms
0, 1, 2 in one match of group 1, atom 2 also in a match of group 2: success is reported with a count for
group 2, which has no surviving match. -/
theorem C19_counts_before_removal :
    simple 3 [(1, [[0, 1, 2]]), (2, [[2]])] true
      = some ([(1, 1), (2, 1)], [(1, [[0, 1, 2]]), (2, [])], true) := by decide +kernel

/-- **C19.** Overlap removal deletes by indexes taken before the deletions: with two smaller matches of
one group on the same atom the second index is past the end of the list and `IndexError` is raised. -/
theorem C19_index_error : simple 3 [(1, [[0, 1], [0, 2]]), (2, [[0, 1, 2]])] true = none := by
  decide +kernel

/-- **C19.** For the same reason a match that overlaps nothing can be deleted: atom 3 is in one match
only, which is removed, and the molecule is reported as not fragmented although the matches without the
overlapping ones cover it. -/
theorem C19_wrong_match_deleted :
    simple 4 [(1, [[0, 1], [0, 2], [3]]), (2, [[0, 1, 2]])] true
      = some ([(1, 3), (2, 1)], [(1, []), (2, [[0, 1, 2]])], false) := by decide +kernel

end Verif.Fragment
