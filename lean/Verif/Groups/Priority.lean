import Mathlib.Tactic
import Verif.TDep.Construct
import Verif.Groups.Fragment

/-!
# Priorities of groups (C153)

`thermo/group_contribution/group_contribution_base.py`: `priority_from_atoms` (30-62), the entries of a catalogue without priority (229), what
`smarts_fragment_priority` returns for a text it cannot read (220-225); `thermo/unifac.py`: the priority of a subgroup (203-206).

The atoms and bonds of a group are dictionaries of counts.  A catalogue of subgroups with counts is turned into the entries of C18 by giving
their matches in the molecule.
-/

namespace Verif.Priority

open Verif.Construct Verif.Fragment

/-- `'X' in atoms` and `atoms['X']` (38-56). -/
def count (d : Dict ℕ) (k : String) : ℕ := (d.get k).getD 0

/-- `TRIPLE_BOND` (32): with a space at its end. -/
def tripleBond : String := "triple "

/-- `priority_from_atoms` (35-62). -/
def priority (atoms : Dict ℕ) (bonds : Option (Dict ℕ)) : ℕ :=
  let p := count atoms "H" + count atoms "C" * 100 + count atoms "O" * 150 + count atoms "N" * 175 + count atoms "Cl" * 300 + count atoms "F" * 400 +
    count atoms "Si" * 200 + count atoms "S" * 250
  match bonds with
  | none => p
  | some b => p + count b "single" * 2 + count b "double" * 10 + count b tripleBond * 100 + count b "aromatic" * 1000

/-- The priority of a subgroup (unifac.py 203-206). -/
def groupPriority (given : Option ℕ) (atoms : Option (Dict ℕ)) (bonds : Option (Dict ℕ)) : Option ℕ := match given, atoms with
  | none, some a => some (priority a bonds)
  | g, _ => g

/-- Weight of an atom, of a bond. -/
def weight (e : String) : ℕ := if e = "H" then 1 else if e = "C" then 100 else if e = "O" then 150 else if e = "N" then 175 else if e = "Si" then 200 else
  if e = "S" then 250 else if e = "Cl" then 300 else if e = "F" then 400 else 0

/-- Entries of a dictionary weighted and added. -/
def weighted (w : String → ℕ) (d : Dict ℕ) : ℕ := (d.map fun p => w p.1 * p.2).sum

theorem count_nil (k : String) : count [] k = 0 := rfl

theorem count_cons (a : String) (n : ℕ) (d : Dict ℕ) (k : String) : count ((a, n) :: d) k = if a = k then n else count d k := by
  unfold count Dict.get
  by_cases h : a = k
  · simp [h]
  · simp [h]

theorem count_notMem (d : Dict ℕ) (k : String) (h : k ∉ d.keys) : count d k = 0 := by
  induction d with
  | nil => rfl
  | cons p d ih =>
    obtain ⟨a, n⟩ := p
    simp only [Dict.keys, List.map_cons, List.mem_cons, not_or] at h
    rw [count_cons, if_neg (Ne.symm h.1)]
    exact ih h.2

/-- **C153.** The priority of a group from its atoms is the sum over its atoms of their weights: 1 for hydrogen, 100 for carbon, 150 for oxygen, 175 for nitrogen, 200 for silicon, 250 for sulphur, 300
for chlorine, 400 for fluorine and nothing for any other element. -/
theorem C153_atoms (d : Dict ℕ) (h : d.keys.Nodup) : priority d none = weighted weight d := by
  induction d with
  | nil => rfl
  | cons p d ih =>
    obtain ⟨a, n⟩ := p
    simp only [Dict.keys, List.map_cons, List.nodup_cons] at h
    have h0 := count_notMem d a h.1
    have ih := ih h.2
    have hw : weighted weight ((a, n) :: d) = weight a * n + weighted weight d := by simp [weighted]
    rw [hw, ← ih]
    unfold priority
    simp only [count_cons]
    by_cases h1 : a = "H"
    · subst h1; simp [weight, h0]; ring
    by_cases h2 : a = "C"
    · subst h2; simp [weight, h0]; ring
    by_cases h3 : a = "O"
    · subst h3; simp [weight, h0]; ring
    by_cases h4 : a = "N"
    · subst h4; simp [weight, h0]; ring
    by_cases h5 : a = "Si"
    · subst h5; simp [weight, h0]; ring
    by_cases h6 : a = "S"
    · subst h6; simp [weight, h0]; ring
    by_cases h7 : a = "Cl"
    · subst h7; simp [weight, h0]; ring
    by_cases h8 : a = "F"
    · subst h8; simp [weight, h0]; ring
    · simp [weight, h1, h2, h3, h4, h5, h6, h7, h8]

example : priority [("C", 2), ("H", 5), ("Br", 3)] none = 205 := by decide +kernel

/-- **C153.** Bonds add to it: 2 for a single bond, 10 for a double, 100 for a triple, 1000 for an aromatic one. -/
theorem C153_bonds (d b : Dict ℕ) : priority d (some b) = priority d none + 2 * count b "single" + 10 * count b "double" + 100 * count b "triple " + 1000 * count b "aromatic" := by
  unfold priority tripleBond
  dsimp only
  ring

/-- **C153.** A group that has everything another one has, has no lower priority; a higher one if it has more of an element or a bond that counts. -/
theorem C153_monotone (d d' : Dict ℕ) (b b' : Option (Dict ℕ)) (h : ∀ e, count d e ≤ count d' e) (hb : ∀ e, count (b.getD []) e ≤ count (b'.getD []) e) :
    priority d b ≤ priority d' b' ∧
    ((∃ e, weight e ≠ 0 ∧ count d e < count d' e) ∨ (∃ e ∈ ["single", "double", "triple ", "aromatic"], count (b.getD []) e < count (b'.getD []) e) → priority d b < priority d' b') := by
  have hp : ∀ (d : Dict ℕ) (b : Option (Dict ℕ)), priority d b = priority d none + 2 * count (b.getD []) "single" + 10 * count (b.getD []) "double" + 100 * count (b.getD []) "triple " + 1000 * count (b.getD []) "aromatic" := by
    intro d b
    cases b with
    | none => simp [count_nil]
    | some b => exact C153_bonds d b
  rw [hp d b, hp d' b']
  have h1 := hb "single"; have h2 := hb "double"; have h3 := hb "triple "; have h4 := hb "aromatic"
  have a1 := h "H"; have a2 := h "C"; have a3 := h "O"; have a4 := h "N"; have a5 := h "Cl"; have a6 := h "F"; have a7 := h "Si"; have a8 := h "S"
  have e : ∀ d, priority d none = count d "H" + count d "C" * 100 + count d "O" * 150 + count d "N" * 175 + count d "Cl" * 300 + count d "F" * 400 +
    count d "Si" * 200 + count d "S" * 250 := fun _ => rfl
  rw [e, e]
  refine ⟨by omega, ?_⟩
  rintro (⟨x, hx, hlt⟩ | ⟨x, hx, hlt⟩)
  · have : x = "H" ∨ x = "C" ∨ x = "O" ∨ x = "N" ∨ x = "Si" ∨ x = "S" ∨ x = "Cl" ∨ x = "F" := by
      by_contra hn
      simp only [not_or] at hn
      obtain ⟨n1, n2, n3, n4, n5, n6, n7, n8⟩ := hn
      simp [weight, n1, n2, n3, n4, n5, n6, n7, n8] at hx
    rcases this with rfl | rfl | rfl | rfl | rfl | rfl | rfl | rfl <;> omega
  · simp only [List.mem_cons, List.not_mem_nil, or_false] at hx
    rcases hx with rfl | rfl | rfl | rfl <;> omega

example : priority [("C", 1), ("H", 2)] (some [("single", 2)]) < priority [("C", 1), ("H", 3), ("O", 1)] (some [("single", 2)]) := by decide +kernel

/-- **C153 fails.** Bromine, iodine and phosphorus do not count, so that a larger group may have no higher priority than the smaller one it contains, whatever their numbers. -/
theorem C153_bromine_fails (d : Dict ℕ) (b : Option (Dict ℕ)) (n : ℕ) (e : String) (he : weight e = 0) (h : e ∉ d.keys) : priority ((e, n) :: d) b = priority d b := by
  have hc : ∀ k, weight k ≠ 0 → count ((e, n) :: d) k = count d k := by
    intro k hk
    rw [count_cons, if_neg]
    rintro rfl
    exact hk he
  unfold priority
  simp only [hc "H" (by decide), hc "C" (by decide), hc "O" (by decide), hc "N" (by decide), hc "Cl" (by decide), hc "F" (by decide), hc "Si" (by decide), hc "S" (by decide)]

example : priority [("Br", 7), ("C", 1)] none = priority [("C", 1)] none := C153_bromine_fails _ _ _ _ (by decide) (by decide)

/-- **C153 fails.** A bond written with the plain word `triple` does not count. -/
theorem C153_triple_fails (d : Dict ℕ) (n : ℕ) : priority d (some [("triple", n)]) = priority d none ∧ priority d (some [(tripleBond, n)]) = priority d none + 100 * n := by
  rw [C153_bonds, C153_bonds]
  simp only [tripleBond, count_cons, count_nil, show ("triple" = "single") = False by decide, show ("triple" = "double") = False by decide, show ("triple" = "triple ") = False by decide,
    show ("triple" = "aromatic") = False by decide, show ("triple " = "single") = False by decide, show ("triple " = "double") = False by decide, show ("triple " = "aromatic") = False by decide, if_false, if_true]
  omega

/-- **C153.** A given priority is kept, even with atoms; without one, the atoms decide; with neither the group has none and is left out of the catalogue. -/
theorem C153_given (given : Option ℕ) (atoms : Option (Dict ℕ)) (bonds : Option (Dict ℕ)) :
    (∀ p, given = some p → groupPriority given atoms bonds = some p) ∧ (∀ a, given = none → atoms = some a → groupPriority given atoms bonds = some (priority a bonds)) ∧
    (groupPriority given atoms bonds = none ↔ given = none ∧ atoms = none) := by
  cases given <;> cases atoms <;> simp [groupPriority]

/-! ## Hydrogen bromide in the catalogue of PSRK -/

/-- Groups 64 and 131 of PSRK (unifac.py 495-496, 2099-2100, 2238-2239) with their matches in hydrogen bromide. -/
def bromine : Grp := ⟨64, priority [("Br", 1)] (some [("single", 1)]), 0, false, false, false, [[0]], []⟩
def hydrogenBromide : Grp := ⟨131, priority [("H", 1), ("Br", 1)] (some []), 1, false, false, false, [[0]], []⟩
def HBr : Mol := ⟨1, 2, 1, fun _ => 1⟩

/-- **C153 fails.** The group for the whole molecule of hydrogen bromide has a lower priority than the group for a bromine atom and is tried after it; it is assigned only because a match of all
heavy atoms without all hydrogens is passed over. -/
theorem C153_hydrogen_bromide_fails : hydrogenBromide.priority < bromine.priority ∧ (byPriority [bromine, hydrogenBromide]).map (·.id) = [64, 131] ∧
    (fragment HBr [bromine, hydrogenBromide]).1.log.map (·.1) = [131] ∧ (fragment HBr [bromine, hydrogenBromide]).2 = true := by decide +kernel

/-! ## What is returned -/

/-- What `smarts_fragment_priority` returns: three values for a text that is not a molecule (222-225), else five. -/
inductive Returned
  | unreadable
  | done (r : Run × Bool)

def answer (mol : Option Mol) (catalog : List Grp) : Returned := match mol with
  | none => .unreadable
  | some m => .done (fragment m catalog)

/-- `assignment, _, _, success, _ = …` of the callers (bondi.py 735, ppr78.py 1023); `none` is `ValueError`. -/
def unpack : Returned → Option (Run × Bool)
  | .unreadable => none
  | .done r => some r

/-- **C153.** A readable molecule gives the callers the assignment of C18. -/
theorem C153_readable (m : Mol) (catalog : List Grp) : unpack (answer (some m) catalog) = some (fragment m catalog) := rfl

/-- **C153 fails.** For a text that cannot be read the documented five values are not returned: the callers raise instead of learning of the failure. -/
theorem C153_unreadable_fails (catalog : List Grp) : unpack (answer none catalog) = none := rfl

end Verif.Priority
