import Mathlib.Data.List.Basic
import Mathlib.Data.Rat.Defs
import Mathlib.Tactic

/-!
# C154: the printed form of an object recreates the object

Docstrings of `__repr__` promise a "String which is valid Python and recreates the current state of the object if ran".  Modelled:

* `IdealGas.__repr__` and constructor: thermo/phases/ideal_gas.py 93-155; `CEOSPhase`: thermo/phases/ceos.py 108-163; `VirialGas`: thermo/phases/virial_phase.py 978-1043;
* `GibbsExcessLiquid`: thermo/phases/gibbs_excess.py 259-322, `GibbsExcessSolid`: 3370-3405;
* `HelmholtzEOS.__repr__`: thermo/phases/helmholtz_eos.py 34-61 with `IAPWS95`: thermo/phases/iapws_phase.py 41-190 and `DryAirLemmon`: thermo/phases/air_phase.py 75-85;
* `EquilibriumState`: thermo/equilibrium.py 252-267; `FlashPureVLS`: thermo/flash/flash_pure_vls.py 249-260; `StreamArgs`: thermo/stream.py 1280-1287; `EnergyStream`: 3006-3012; `BulkSettings`: thermo/bulk.py 376-382 and 437-460;
* `IdealSolution`: thermo/activity.py 330; `HansenSolution`: thermo/regular_solution.py 1648-1681;
* `ChemicalConstantsPackage._make_str` and constructor: thermo/chemical_package.py 816-829 and 1019-1100; `PropertyCorrelationsPackage._make_str`: 1584-1603.

Simplified: what is printed is a list of keywords with literals or bare words; nested objects are opaque values whose own printed form is taken as right (they are treated by their own class); `nan` and numpy arrays are left out. The text of the joined list is treated in the last section, as lists of characters.
-/

namespace Verif.Repr

/-- Values of attributes; `None` is `none : Option Val`. `items` is a list of objects or numbers, each of which may be `None`; `obj` is any object with a faithful printed form. -/
inductive Val where
  | num (q : ℚ)
  | text (s : String)
  | flag (b : Bool)
  | items (l : List (Option ℕ))
  | obj (n : ℕ)
deriving DecidableEq

/-- Attributes of an object. -/
abbrev Attrs := String → Option Val

/-- Source text of one argument: a literal (or constructor call) or a bare word. -/
inductive Expr where
  | lit (v : Option Val)
  | word (s : String)
deriving DecidableEq

/-- `repr` of a value: text is quoted. -/
def reprOf (v : Option Val) : Expr := .lit v

/-- `str` of a value: text stays bare. -/
def strOf : Option Val → Expr
  | some (.text s) => .word s
  | v => .lit v

/-- Running the text: a bare word is an unknown name, an exception. -/
def run : Expr → Option (Option Val)
  | .lit v => some v
  | .word _ => none

/-- How a class prints an attribute: `always`/`ifSet` with `repr` (`true`) or `str` (`false`); `joined`: `'[' + ', '.join(...) + ']'`, which raises for `None`; `joinedOrEmpty`: the same in `try` with `''` on failure (ceos.py 122-125); `presence`: only whether it is set (stream.py 1281); `unset`: an attribute that never exists (`AttributeError`). -/
inductive Mode where
  | always (quoted : Bool)
  | ifSet (quoted : Bool)
  | joined
  | joinedOrEmpty
  | presence
  | unset
deriving DecidableEq

/-- Text with or without quotes. -/
def form (quoted : Bool) (v : Option Val) : Expr := if quoted then reprOf v else strOf v

/-- What is printed for an attribute: `none` is an exception, `some none` is nothing. -/
def Mode.shown : Mode → Option Val → Option (Option Expr)
  | .always q, v => some (some (form q v))
  | .ifSet _, none => some none
  | .ifSet q, some v => some (some (form q (some v)))
  | .joined, some (.items l) => some (some (.lit (some (.items l))))
  | .joined, _ => none
  | .joinedOrEmpty, some (.items l) => some (some (.lit (some (.items l))))
  | .joinedOrEmpty, _ => some (some (.lit (some (.items []))))
  | .presence, v => some (some (.lit (some (.flag v.isSome))))
  | .unset, _ => none

/-- A class: parameters of its constructor with their default (`none` is required) and attributes printed in order. -/
structure Cls where
  params : List (String × Option (Option Val))
  prints : List (String × Mode)

/-- Printed arguments of the entries `ps`: `none` is an exception. -/
def printAll (o : Attrs) : List (String × Mode) → Option (List (String × Expr))
  | [] => some []
  | (k, m) :: ps =>
    match m.shown (o k), printAll o ps with
    | some (some e), some rest => some ((k, e) :: rest)
    | some none, some rest => some rest
    | _, _ => none

/-- The printed form of an object. -/
def Cls.repr (c : Cls) (o : Attrs) : Option (List (String × Expr)) := printAll o c.prints

/-- Value of one parameter in a call: the argument given, else the default. -/
def bound (args : List (String × Expr)) (p : String × Option (Option Val)) : Option (Option Val) :=
  match args.lookup p.1 with
  | some e => run e
  | none => p.2

/-- Values of all parameters in a call. -/
def bindAll (args : List (String × Expr)) : List (String × Option (Option Val)) → Option (List (String × Option Val))
  | [] => some []
  | p :: ps =>
    match bound args p, bindAll args ps with
    | some v, some rest => some ((p.1, v) :: rest)
    | _, _ => none

/-- Call of the constructor with keywords: an unknown keyword, a missing required parameter or a text that does not run is an exception. -/
def Cls.build (c : Cls) (args : List (String × Expr)) : Option (List (String × Option Val)) :=
  if ∀ a ∈ args, a.1 ∈ c.params.map Prod.fst then bindAll args c.params else none

/-- What the constructor was given for an object: the state a printed form has to recreate. -/
def Cls.state (c : Cls) (o : Attrs) : List (String × Option Val) := c.params.map fun p => (p.1, o p.1)

/-- Printing and running the text. -/
def Cls.again (c : Cls) (o : Attrs) : Option (List (String × Option Val)) := (c.repr o).bind c.build

/-! ## When an object is recreated -/

theorem bindAll_eq (args : List (String × Expr)) (g : Attrs) (ps : List (String × Option (Option Val))) :
    bindAll args ps = some (ps.map fun p => (p.1, g p.1)) ↔ ∀ p ∈ ps, bound args p = some (g p.1) := by
  induction ps with
  | nil => simp [bindAll]
  | cons p ps ih =>
    simp only [bindAll, List.map_cons, List.mem_cons, forall_eq_or_imp]
    rw [← ih]
    cases h1 : bound args p <;> cases h2 : bindAll args ps <;> simp

theorem printAll_keys {o : Attrs} : ∀ {ps : List (String × Mode)} {args}, printAll o ps = some args → ∀ k e, (k, e) ∈ args → ∃ m, (k, m) ∈ ps ∧ m.shown (o k) = some (some e)
  | [], args, h, k, e, hk => by
    simp only [printAll, Option.some.injEq] at h
    subst h
    cases hk
  | (k', m) :: ps, args, h, k, e, hk => by
    simp only [printAll] at h
    split at h
    · rename_i e' rest h1 h2
      simp only [Option.some.injEq] at h
      subst h
      rcases List.mem_cons.1 hk with hk | hk
      · simp only [Prod.mk.injEq] at hk
        obtain ⟨rfl, rfl⟩ := hk
        exact ⟨m, by simp, h1⟩
      · obtain ⟨m', hm, hs⟩ := printAll_keys h2 k e hk
        exact ⟨m', by simp [hm], hs⟩
    · rename_i rest h1 h2
      simp only [Option.some.injEq] at h
      subst h
      obtain ⟨m', hm, hs⟩ := printAll_keys h2 k e hk
      exact ⟨m', by simp [hm], hs⟩
    · cases h

theorem printAll_shown {o : Attrs} : ∀ {ps : List (String × Mode)} {args}, printAll o ps = some args → ∀ k m, (k, m) ∈ ps → ∃ s, m.shown (o k) = some s ∧ ∀ e, s = some e → (k, e) ∈ args
  | [], args, h, k, m, hk => by cases hk
  | (k', m') :: ps, args, h, k, m, hk => by
    simp only [printAll] at h
    split at h
    · rename_i e' rest h1 h2
      simp only [Option.some.injEq] at h
      subst h
      rcases List.mem_cons.1 hk with hk | hk
      · simp only [Prod.mk.injEq] at hk
        obtain ⟨rfl, rfl⟩ := hk
        exact ⟨some e', h1, fun e he => by simp_all⟩
      · obtain ⟨s, hs, hm⟩ := printAll_shown h2 k m hk
        exact ⟨s, hs, fun e he => by simp [hm e he]⟩
    · rename_i rest h1 h2
      simp only [Option.some.injEq] at h
      subst h
      rcases List.mem_cons.1 hk with hk | hk
      · simp only [Prod.mk.injEq] at hk
        obtain ⟨rfl, rfl⟩ := hk
        exact ⟨none, h1, fun e he => by cases he⟩
      · exact printAll_shown h2 k m hk
    · cases h

theorem printAll_lookup {o : Attrs} : ∀ {ps : List (String × Mode)} {args}, printAll o ps = some args → (ps.map Prod.fst).Nodup → ∀ k,
    args.lookup k = (ps.lookup k).bind fun m => (m.shown (o k)).bind id
  | [], args, h, hn, k => by
    simp only [printAll, Option.some.injEq] at h
    subst h
    rfl
  | (k', m) :: ps, args, h, hn, k => by
    simp only [List.map_cons, List.nodup_cons] at hn
    simp only [printAll] at h
    split at h
    · rename_i e' rest h1 h2
      simp only [Option.some.injEq] at h
      subst h
      have ih := printAll_lookup h2 hn.2 k
      by_cases hk : k = k'
      · subst hk
        simp [h1]
      · have : (k == k') = false := by simpa using hk
        simp only [List.lookup_cons, this]
        exact ih
    · rename_i rest h1 h2
      simp only [Option.some.injEq] at h
      subst h
      have ih := printAll_lookup h2 hn.2 k
      by_cases hk : k = k'
      · subst hk
        have : ps.lookup k = none := by
          rw [List.lookup_eq_none_iff]
          intro p hp
          by_contra hc
          simp only [Bool.not_eq_true, bne_eq_false_iff_eq, beq_eq_false_iff_ne, ne_eq, not_not] at hc
          exact hn.1 (List.mem_map.2 ⟨p, hp, by simpa using hc.symm⟩)
        rw [ih, this]
        simp [h1]
      · have : (k == k') = false := by simpa using hk
        simp only [List.lookup_cons, this]
        exact ih
    · cases h

theorem printAll_some {o : Attrs} : ∀ {ps : List (String × Mode)}, (∃ args, printAll o ps = some args) ↔ ∀ p ∈ ps, p.2.shown (o p.1) ≠ none
  | [] => by simp [printAll]
  | (k, m) :: ps => by
    have ih := printAll_some (o := o) (ps := ps)
    simp only [List.mem_cons, forall_eq_or_imp]
    rw [← ih]
    simp only [printAll]
    rcases h1 : m.shown (o k) with _ | _ | e <;> rcases h2 : printAll o ps with _ | rest <;> simp

/-- A parameter comes back: printed with a text that gives its value, or not printed and at its default. -/
def Kept (c : Cls) (o : Attrs) (p : String × Option (Option Val)) : Prop :=
  match (c.prints.lookup p.1).bind fun m => (m.shown (o p.1)).bind id with
  | some e => e = .lit (o p.1)
  | none => p.2 = some (o p.1)

/-- **C154.** An object is recreated by its printed form exactly if printing raises nothing, everything printed is a parameter of the constructor, and each parameter is printed as a literal of its value or is at its default. -/
theorem C154_recreated (c : Cls) (o : Attrs) (hn : (c.prints.map Prod.fst).Nodup) :
    c.again o = some (c.state o) ↔ (∀ p ∈ c.prints, p.2.shown (o p.1) ≠ none) ∧
      (∀ p ∈ c.prints, p.2.shown (o p.1) ≠ some none → p.1 ∈ c.params.map Prod.fst) ∧ ∀ p ∈ c.params, Kept c o p := by
  by_cases hs : ∀ p ∈ c.prints, p.2.shown (o p.1) ≠ none
  · obtain ⟨args, ha⟩ := printAll_some.2 hs
    have hrepr : c.repr o = some args := ha
    have hk : (∀ a ∈ args, a.1 ∈ c.params.map Prod.fst) ↔ ∀ p ∈ c.prints, p.2.shown (o p.1) ≠ some none → p.1 ∈ c.params.map Prod.fst := by
      constructor
      · intro h p hp hne
        obtain ⟨s, h1, h2⟩ := printAll_shown ha p.1 p.2 hp
        cases s with
        | none => exact absurd h1 hne
        | some e => exact h _ (h2 e rfl)
      · intro h a haa
        obtain ⟨m, hm, hsh⟩ := printAll_keys ha a.1 a.2 haa
        exact h (a.1, m) hm (by rw [hsh]; simp)
    have hb : ∀ p : String × Option (Option Val), bound args p = some (o p.1) ↔ Kept c o p := by
      intro p
      unfold bound Kept
      rw [printAll_lookup ha hn p.1]
      rcases (c.prints.lookup p.1).bind fun m => (m.shown (o p.1)).bind id with _ | (v | w)
      · rfl
      · simp [run]
      · simp [run]
    simp only [Cls.again, hrepr, Option.bind_some, Cls.build, Cls.state]
    constructor
    · intro h
      split_ifs at h with hc
      · exact ⟨hs, hk.1 hc, fun p hp => (hb p).1 ((bindAll_eq args o c.params).1 h p hp)⟩
    · rintro ⟨-, h2, h3⟩
      rw [if_pos (hk.2 h2)]
      exact (bindAll_eq args o c.params).2 fun p hp => (hb p).2 (h3 p hp)
  · constructor
    · intro h
      exfalso
      apply hs
      apply printAll_some.1
      unfold Cls.again at h
      cases hr : c.repr o with
      | none => rw [hr] at h; cases h
      | some args => exact ⟨args, hr⟩
    · intro h
      exact absurd h.1 hs

/-- **C154.** A class that prints every parameter with quotes where needed, and nothing else, recreates each of its objects. -/
theorem C154_all_printed (ns : List (String × Option (Option Val))) (hn : (ns.map Prod.fst).Nodup) (o : Attrs) :
    (Cls.mk ns (ns.map fun p => (p.1, .always true))).again o = some ((Cls.mk ns (ns.map fun p => (p.1, .always true))).state o) := by
  refine (C154_recreated _ o (by simp only [List.map_map]; exact hn)).2 ⟨?_, ?_, ?_⟩
  · intro p hp
    obtain ⟨q, -, rfl⟩ := List.mem_map.1 hp
    simp [Mode.shown]
  · intro p hp _
    obtain ⟨q, hq, rfl⟩ := List.mem_map.1 hp
    exact List.mem_map.2 ⟨q, hq, rfl⟩
  · intro p hp
    have : (ns.map fun p => (p.1, Mode.always true)).lookup p.1 = some (.always true) := by
      clear hn
      induction ns with
      | nil => cases hp
      | cons q ns ih =>
        by_cases h : p.1 = q.1
        · simp [h]
        · have hb : (p.1 == q.1) = false := by simpa using h
          simp only [List.map_cons, List.lookup_cons, hb]
          rcases List.mem_cons.1 hp with rfl | hp
          · exact absurd rfl h
          · exact ih hp
    simp only [Kept, this, Option.bind_some, Mode.shown, id, form, if_true, reprOf]

/-- **C154.** A parameter that is never printed and is not at its default does not come back, whatever the class prints otherwise. -/
theorem C154_unprinted_lost (c : Cls) (o : Attrs) (hn : (c.prints.map Prod.fst).Nodup) (p : String × Option (Option Val)) (hp : p ∈ c.params) (hu : p.1 ∉ c.prints.map Prod.fst)
    (hd : p.2 ≠ some (o p.1)) : c.again o ≠ some (c.state o) := by
  intro h
  have hk := ((C154_recreated c o hn).1 h).2.2 p hp
  have : c.prints.lookup p.1 = none := by
    rw [List.lookup_eq_none_iff]
    intro q hq
    by_contra hc
    exact hu (List.mem_map.2 ⟨q, hq, by simpa using (Eq.symm (by simpa using hc))⟩)
  simp only [Kept, this, Option.bind_none] at hk
  exact hd hk

/-- **C154.** Text printed without quotes does not come back. -/
theorem C154_bare_lost (c : Cls) (o : Attrs) (hn : (c.prints.map Prod.fst).Nodup) (p : String × Option (Option Val)) (hp : p ∈ c.params) (s : String) (ho : o p.1 = some (.text s))
    (hm : c.prints.lookup p.1 = some (.always false) ∨ c.prints.lookup p.1 = some (.ifSet false)) : c.again o ≠ some (c.state o) := by
  intro h
  have hk := ((C154_recreated c o hn).1 h).2.2 p hp
  rcases hm with hm | hm <;> simp [Kept, hm, ho, Mode.shown, form, strOf] at hk

/-! ## Classes -/

/-- `T_DEFAULT` and `P_DEFAULT` of phases (thermo/phases/phase.py 136-137). -/
def tDefault : Option (Option Val) := some (some (.num (29815/100)))
def pDefault : Option (Option Val) := some (some (.num 101325))

/-- Parameter with default `None`. -/
def opt (k : String) : String × Option (Option Val) := (k, some none)

/-- Parameter with default `False`. -/
def off (k : String) : String × Option (Option Val) := (k, some (some (.flag false)))

/-- Required parameter. -/
def req (k : String) : String × Option (Option Val) := (k, none)

/-- Attributes phases print if set, with `str`. -/
def tail : List (String × Mode) := ["Hfs", "Gfs", "Sfs", "T", "P", "zs"].map fun k => (k, .ifSet false)

/-- `IdealGas` (ideal_gas.py 93, 147-151). -/
def idealGas : Cls where
  params := [opt "HeatCapacityGases", opt "Hfs", opt "Gfs", opt "Sfs", ("T", tDefault), ("P", pDefault), opt "zs"]
  prints := ("HeatCapacityGases", .joined) :: tail

/-- `CEOSPhase` (ceos.py 121-136). -/
def ceosPhase : Cls where
  params := [req "eos_class", req "eos_kwargs", opt "HeatCapacityGases", opt "Hfs", opt "Gfs", opt "Sfs", ("T", tDefault), ("P", pDefault), opt "zs"]
  prints := [("eos_class", .always false), ("eos_kwargs", .always false), ("HeatCapacityGases", .joinedOrEmpty)] ++ tail

/-- `VirialGas` (virial_phase.py 978-980, 1029-1039). -/
def virialGas : Cls where
  params := [req "model", opt "HeatCapacityGases", opt "Hfs", opt "Gfs", ("T", tDefault), ("P", pDefault), opt "zs", ("B_mixing_rule", some (some (.text "theory"))),
    ("C_mixing_rule", some (some (.text "Orentlicher-Prausnitz")))]
  prints := [("model", .always false), ("HeatCapacityGases", .joinedOrEmpty)] ++ ["B_mixing_rule", "C_mixing_rule", "Hfs", "Gfs", "T", "P", "zs"].map fun k => (k, .ifSet true)

/-- `GibbsExcessLiquid` (gibbs_excess.py 233-234, 272-291, 295-322). -/
def gibbsExcess : Cls where
  params := [req "VaporPressures", opt "VolumeLiquids", opt "HeatCapacityGases", opt "GibbsExcessModel", opt "eos_pure_instances", opt "EnthalpyVaporizations", opt "HeatCapacityLiquids",
    opt "VolumeSupercriticalLiquids", off "use_Hvap_caloric", off "use_Poynting", off "use_phis_sat", off "use_Tait", off "use_eos_volume", opt "Hfs", opt "Gfs", opt "Sfs", opt "henry_components",
    opt "henry_abcdef", opt "henry_as", opt "henry_bs", opt "henry_cs", opt "henry_ds", opt "henry_es", opt "henry_fs", ("henry_mode", some (some (.text "solvents_with_parameters"))),
    ("T", tDefault), ("P", pDefault), opt "zs", ("Psat_extrpolation", some (some (.text "AB"))), opt "equilibrium_basis", opt "caloric_basis"]
  prints := ["GibbsExcessModel", "equilibrium_basis", "caloric_basis", "eos_pure_instances"].map (fun k => (k, Mode.always false)) ++
    ["HeatCapacityGases", "VolumeLiquids", "VaporPressures", "HeatCapacityLiquids", "EnthalpyVaporizations"].map (fun k => (k, Mode.ifSet false)) ++ tail

/-- `GibbsExcessSolid` (3380-3405): the constructor hands its correlations on under other names and never stores `SublimationPressures`, `VolumeSolids`, `EnthalpySublimations`. -/
def gibbsSolid : Cls where
  params := [req "SublimationPressures", opt "VolumeSolids", ("GibbsExcessModel", some (some (.obj 0))), opt "eos_pure_instances", opt "VolumeLiquidMixture", opt "HeatCapacityGases", opt "EnthalpySublimations",
    off "use_Poynting", off "use_phis_sat", opt "Hfs", opt "Gfs", opt "Sfs", ("T", tDefault), ("P", pDefault), opt "zs"]
  prints := ["GibbsExcessModel", "equilibrium_basis", "caloric_basis", "eos_pure_instances"].map (fun k => (k, Mode.always false)) ++
    [("HeatCapacityGases", .ifSet false), ("SublimationPressures", .unset), ("VolumeSolids", .unset), ("EnthalpySublimations", .unset)] ++ tail

/-- `HelmholtzEOS.__repr__` for `IAPWS95Gas` and `IAPWS95Liquid` (helmholtz_eos.py 54). -/
def iapws95Gas : Cls where
  params := [("T", tDefault), ("P", pDefault), opt "zs"]
  prints := ["T", "P", "zs"].map fun k => (k, .ifSet false)

/-- The same for `IAPWS95` itself (iapws_phase.py 49-51, 88). -/
def iapws95 : Cls where
  params := [("T", tDefault), ("P", pDefault), opt "zs"]
  prints := tail

/-- `DryAirLemmon` (air_phase.py 75): the default pressure is the default temperature. -/
def dryAir : Cls where
  params := [("T", tDefault), ("P", tDefault), opt "zs"]
  prints := tail

/-- `EquilibriumState` (equilibrium.py 252-267). -/
def equilibriumState : Cls where
  params := [req "T", req "P", req "zs", req "gas", req "liquids", req "solids", req "betas", opt "flash_specs", opt "flash_convergence", opt "constants", opt "correlations", opt "flasher",
    ("settings", some (some (.obj 0)))]
  prints := ["T", "P", "zs", "betas", "gas", "liquids", "solids"].map fun k => (k, .always true)

/-- `FlashPureVLS` (flash_pure_vls.py 249-260). -/
def flashPure : Cls where
  params := [req "constants", req "correlations", req "gas", req "liquids", req "solids", ("settings", some (some (.obj 0)))]
  prints := ["gas", "liquids", "solids", "constants", "correlations"].map fun k => (k, .always true)

/-- `StreamArgs` (stream.py 1280-1287); `specs` are the names of the specifications. -/
def streamArgs (specs : List String) : Cls where
  params := opt "flasher" :: specs.map opt
  prints := ("flasher", .presence) :: specs.map fun k => (k, .ifSet true)

/-- `BulkSettings` (bulk.py 437-460); `ns` are the settings with their defaults. -/
def bulkSettings (ns : List (String × Option Val)) : Cls where
  params := ns.map fun p => (p.1, some p.2)
  prints := ns.map fun p => (p.1, .ifSet true)

/-- `EnergyStream` (3006-3012). -/
def energyStream : Cls := ⟨[req "Q"], [("Q", .always false)]⟩

/-- `IdealSolution` (activity.py 330, 1185) and `HansenSolution` (regular_solution.py 1648-1681). -/
def idealSolution : Cls := ⟨[req "xs", ("T", tDefault)], [("T", .always true), ("xs", .always true)]⟩
def hansen : Cls where
  params := [req "xs", req "Vs", req "delta_d", req "delta_p", req "delta_h", ("T", tDefault), ("alpha", some (some (.num 1)))]
  prints := ["T", "xs", "Vs", "delta_d", "delta_p", "delta_h", "alpha"].map fun k => (k, .always true)

/-- No text among the attributes named. -/
def NoText (o : Attrs) (ks : List String) : Prop := ∀ k ∈ ks, ∀ s, o k ≠ some (.text s)

theorem str_lit {v : Option Val} (h : ∀ s, v ≠ some (.text s)) : strOf v = .lit v := by
  rcases v with _ | v
  · rfl
  · cases v with
    | text s => exact absurd rfl (h s)
    | _ => rfl

theorem shown_ifSet {v : Option Val} (q : Bool) : ((Mode.ifSet q).shown v).bind id = v.map fun x => form q (some x) := by
  cases v <;> rfl

/-- An attribute printed if set, without text: it comes back if it is set or `None` is the default. -/
theorem kept_ifSet {c : Cls} {o : Attrs} {p : String × Option (Option Val)} (hl : c.prints.lookup p.1 = some (.ifSet false)) (ht : ∀ s, o p.1 ≠ some (.text s)) :
    Kept c o p ↔ o p.1 ≠ none ∨ p.2 = some none := by
  unfold Kept
  rw [hl, Option.bind_some, shown_ifSet]
  rcases h : o p.1 with _ | v
  · simp
  · rw [h] at ht
    simp [form, str_lit ht]

/-- **C154.** An ideal gas is recreated exactly if it has a list of heat capacities and both temperature and pressure are set. -/
theorem C154_ideal_gas (o : Attrs) (ht : NoText o ["Hfs", "Gfs", "Sfs", "T", "P", "zs"]) :
    idealGas.again o = some (idealGas.state o) ↔ (∃ l, o "HeatCapacityGases" = some (.items l)) ∧ o "T" ≠ none ∧ o "P" ≠ none := by
  have hn : (idealGas.prints.map Prod.fst).Nodup := by decide
  rw [C154_recreated _ o hn]
  have k1 : ∀ s d, s ∈ ["Hfs", "Gfs", "Sfs", "T", "P", "zs"] → (Kept idealGas o (s, d) ↔ o s ≠ none ∨ d = some none) := by
    intro s d hs
    refine kept_ifSet (p := (s, d)) ?_ (ht s hs)
    simp only [List.mem_cons, List.not_mem_nil, or_false] at hs
    rcases hs with rfl | rfl | rfl | rfl | rfl | rfl <;> rfl
  have hsh : ∀ (s : String) (v : Option Val), (Mode.ifSet false).shown v ≠ none := by intro s v; cases v <;> simp [Mode.shown]
  have kh : (∃ l, o "HeatCapacityGases" = some (.items l)) → Kept idealGas o (opt "HeatCapacityGases") := by
    rintro ⟨l, hl⟩
    have : idealGas.prints.lookup "HeatCapacityGases" = some .joined := by decide
    simp only [Kept, opt, this, Option.bind_some, hl, Mode.shown, id]
  have hp : idealGas.params = [opt "HeatCapacityGases", opt "Hfs", opt "Gfs", opt "Sfs", ("T", tDefault), ("P", pDefault), opt "zs"] := rfl
  constructor
  · rintro ⟨h1, -, h3⟩
    have hj := h1 ("HeatCapacityGases", .joined) (by simp [idealGas])
    refine ⟨?_, ?_, ?_⟩
    · rcases h : o "HeatCapacityGases" with _ | (_ | _ | _ | l | _)
      all_goals first
        | exact ⟨_, rfl⟩
        | (exfalso; apply hj; simp only [h, Mode.shown])
    · have := (k1 "T" _ (by simp)).1 (h3 ("T", tDefault) (by rw [hp]; simp))
      rcases this with h | h
      · exact h
      · cases h
    · have := (k1 "P" _ (by simp)).1 (h3 ("P", pDefault) (by rw [hp]; simp))
      rcases this with h | h
      · exact h
      · cases h
  · rintro ⟨⟨l, hl⟩, hT, hP⟩
    refine ⟨?_, ?_, ?_⟩
    · intro p hp
      rcases List.mem_cons.1 hp with rfl | hp
      · simp only [hl, Mode.shown]; simp
      · obtain ⟨s, -, rfl⟩ := List.mem_map.1 hp
        exact hsh s _
    · intro p hpp _
      exact (by decide : ∀ p ∈ idealGas.prints, p.1 ∈ idealGas.params.map Prod.fst) p hpp
    · intro p hpp
      rw [hp] at hpp
      simp only [List.mem_cons, List.not_mem_nil, or_false] at hpp
      rcases hpp with rfl | rfl | rfl | rfl | rfl | rfl | rfl
      · exact kh ⟨l, hl⟩
      · exact (k1 _ _ (by simp)).2 (Or.inr rfl)
      · exact (k1 _ _ (by simp)).2 (Or.inr rfl)
      · exact (k1 _ _ (by simp)).2 (Or.inr rfl)
      · exact (k1 _ _ (by simp)).2 (Or.inl hT)
      · exact (k1 _ _ (by simp)).2 (Or.inl hP)
      · exact (k1 _ _ (by simp)).2 (Or.inr rfl)

/-- Objects of a class that prints parameters only. -/
theorem recreated_of (c : Cls) (o : Attrs) (hn : (c.prints.map Prod.fst).Nodup) (hs : ∀ p ∈ c.prints, p.1 ∈ c.params.map Prod.fst) (h1 : ∀ p ∈ c.prints, p.2.shown (o p.1) ≠ none)
    (h2 : ∀ p ∈ c.params, Kept c o p) : c.again o = some (c.state o) := (C154_recreated c o hn).2 ⟨h1, fun p hp _ => hs p hp, h2⟩

/-- An attribute always printed, without text. -/
theorem kept_always {c : Cls} {o : Attrs} {p : String × Option (Option Val)} {q : Bool} (hl : c.prints.lookup p.1 = some (.always q)) (ht : q = false → ∀ s, o p.1 ≠ some (.text s)) : Kept c o p := by
  unfold Kept
  rw [hl]
  cases q with
  | true => rfl
  | false =>
    simp only [Option.bind_some, Mode.shown, id, form]
    exact str_lit (ht rfl)

/-- An attribute printed if set, with quotes. -/
theorem kept_quoted {c : Cls} {o : Attrs} {p : String × Option (Option Val)} (hl : c.prints.lookup p.1 = some (.ifSet true)) : Kept c o p ↔ o p.1 ≠ none ∨ p.2 = some none := by
  unfold Kept
  rw [hl, Option.bind_some, shown_ifSet]
  rcases o p.1 with _ | v
  · simp
  · simp [form, reprOf]

theorem kept_joined {c : Cls} {o : Attrs} {p : String × Option (Option Val)} (hl : c.prints.lookup p.1 = some .joinedOrEmpty) : Kept c o p ↔ ∃ l, o p.1 = some (.items l) := by
  unfold Kept
  rw [hl, Option.bind_some]
  rcases o p.1 with _ | (_ | _ | _ | l | _) <;> simp [Mode.shown]

/-- An attribute that is not printed. -/
theorem kept_unprinted {c : Cls} {o : Attrs} {p : String × Option (Option Val)} (hl : c.prints.lookup p.1 = none) : Kept c o p ↔ p.2 = some (o p.1) := by
  unfold Kept
  rw [hl]
  rfl

/-- Modes that never raise. -/
theorem shown_ne {m : Mode} (hm : m ≠ .joined ∧ m ≠ .unset) (v : Option Val) : m.shown v ≠ none := by
  rcases m with _ | _ | _ | _ | _ | _ <;> rcases v with _ | (_ | _ | _ | _ | _) <;> simp_all [Mode.shown]

/-- **C154.** A phase of a cubic equation of state with a list of heat capacities, a temperature and a pressure is recreated. -/
theorem C154_ceos_phase (o : Attrs) (ht : NoText o ["eos_class", "eos_kwargs", "Hfs", "Gfs", "Sfs", "T", "P", "zs"]) :
    ceosPhase.again o = some (ceosPhase.state o) ↔ (∃ l, o "HeatCapacityGases" = some (.items l)) ∧ o "T" ≠ none ∧ o "P" ≠ none := by
  have hp : ceosPhase.params = [req "eos_class", req "eos_kwargs", opt "HeatCapacityGases", opt "Hfs", opt "Gfs", opt "Sfs", ("T", tDefault), ("P", pDefault), opt "zs"] := rfl
  have hn : (ceosPhase.prints.map Prod.fst).Nodup := by decide
  constructor
  · intro h
    have h3 := ((C154_recreated _ o hn).1 h).2.2
    rw [hp] at h3
    refine ⟨(kept_joined (p := opt "HeatCapacityGases") rfl).1 (h3 _ (by simp)), ?_, ?_⟩
    · rcases (kept_ifSet (p := ("T", tDefault)) rfl (ht "T" (by simp))).1 (h3 _ (by simp)) with h | h
      · exact h
      · cases h
    · rcases (kept_ifSet (p := ("P", pDefault)) rfl (ht "P" (by simp))).1 (h3 _ (by simp)) with h | h
      · exact h
      · cases h
  · rintro ⟨hl, hT, hP⟩
    refine recreated_of _ o hn (by decide) (fun p hp => shown_ne ((by decide : ∀ p ∈ ceosPhase.prints, p.2 ≠ .joined ∧ p.2 ≠ .unset) p hp) _) ?_
    rw [hp]
    intro p hpp
    simp only [List.mem_cons, List.not_mem_nil, or_false] at hpp
    rcases hpp with rfl | rfl | rfl | rfl | rfl | rfl | rfl | rfl | rfl
    · exact kept_always (q := false) rfl fun _ => ht _ (by simp [req])
    · exact kept_always (q := false) rfl fun _ => ht _ (by simp [req])
    · exact (kept_joined rfl).2 hl
    · exact (kept_ifSet rfl (ht _ (by simp [opt]))).2 (Or.inr rfl)
    · exact (kept_ifSet rfl (ht _ (by simp [opt]))).2 (Or.inr rfl)
    · exact (kept_ifSet rfl (ht _ (by simp [opt]))).2 (Or.inr rfl)
    · exact (kept_ifSet rfl (ht _ (by simp))).2 (Or.inl hT)
    · exact (kept_ifSet rfl (ht _ (by simp))).2 (Or.inl hP)
    · exact (kept_ifSet rfl (ht _ (by simp [opt]))).2 (Or.inr rfl)

/-- Number of components of a `CEOSPhase` (ceos.py 144-147). -/
def ceosN (heatCapacities : Option (List (Option ℕ))) (Tcs : Option (List ℚ)) : Option ℕ :=
  match heatCapacities with
  | some l => some l.length
  | none => Tcs.map List.length

/-- **C154 fails.** A phase of a cubic equation of state without heat capacities, which is allowed, comes back with the empty list of heat capacities, and then with no components at all. -/
theorem C154_ceos_fails (o : Attrs) (h : o "HeatCapacityGases" = none) (Tcs : List ℚ) :
    ceosPhase.again o ≠ some (ceosPhase.state o) ∧ (ceosPhase.prints.lookup "HeatCapacityGases").bind (fun m => m.shown (o "HeatCapacityGases")) = some (some (.lit (some (.items [])))) ∧
      ceosN none (some Tcs) = some Tcs.length ∧ ceosN (some []) (some Tcs) = some 0 := by
  refine ⟨?_, by rw [h]; rfl, rfl, rfl⟩
  intro hr
  have h3 := ((C154_recreated _ o (by decide)).1 hr).2.2 (opt "HeatCapacityGases") (by simp [ceosPhase])
  obtain ⟨l, hl⟩ := (kept_joined (p := opt "HeatCapacityGases") rfl).1 h3
  simp only [opt, h] at hl
  cases hl

/-- **C154.** A virial gas with a list of heat capacities is recreated with its mixing rules. -/
theorem C154_virial (o : Attrs) (hm : ∀ s, o "model" ≠ some (.text s)) (hl : ∃ l, o "HeatCapacityGases" = some (.items l)) (hs : ∀ k ∈ ["T", "P", "B_mixing_rule", "C_mixing_rule"], o k ≠ none) :
    virialGas.again o = some (virialGas.state o) := by
  refine recreated_of _ o (by decide) (by decide) (fun p hp => shown_ne ((by decide : ∀ p ∈ virialGas.prints, p.2 ≠ .joined ∧ p.2 ≠ .unset) p hp) _) ?_
  intro p hpp
  simp only [virialGas, List.mem_cons, List.not_mem_nil, or_false] at hpp
  rcases hpp with rfl | rfl | rfl | rfl | rfl | rfl | rfl | rfl | rfl
  · exact kept_always (q := false) rfl fun _ => hm
  · exact (kept_joined rfl).2 hl
  · exact (kept_quoted rfl).2 (Or.inr rfl)
  · exact (kept_quoted rfl).2 (Or.inr rfl)
  · exact (kept_quoted rfl).2 (Or.inl (hs _ (by simp)))
  · exact (kept_quoted rfl).2 (Or.inl (hs _ (by simp)))
  · exact (kept_quoted rfl).2 (Or.inr rfl)
  · exact (kept_quoted rfl).2 (Or.inl (hs _ (by simp)))
  · exact (kept_quoted rfl).2 (Or.inl (hs _ (by simp)))

/-- **C154 fails.** A virial gas without heat capacities is not recreated. -/
theorem C154_virial_fails (o : Attrs) (h : o "HeatCapacityGases" = none) : virialGas.again o ≠ some (virialGas.state o) := by
  intro hr
  have h3 := ((C154_recreated _ o (by decide)).1 hr).2.2 (opt "HeatCapacityGases") (by simp [virialGas])
  obtain ⟨l, hl⟩ := (kept_joined (p := opt "HeatCapacityGases") rfl).1 h3
  simp only [opt, h] at hl
  cases hl

/-- Arguments of `GibbsExcessLiquid` that are never printed. -/
def unprinted : List String := ["VolumeSupercriticalLiquids", "use_Hvap_caloric", "use_Poynting", "use_phis_sat", "use_Tait", "use_eos_volume", "henry_components", "henry_abcdef", "henry_as", "henry_bs",
  "henry_cs", "henry_ds", "henry_es", "henry_fs", "henry_mode", "Psat_extrpolation"]

/-- **C154 fails.** The flags, Henry's law parameters, supercritical volumes and extrapolation of an activity coefficient liquid are not printed: any of them that is not at its default is lost. -/
theorem C154_gibbs_unprinted_fails (o : Attrs) (p : String × Option (Option Val)) (hp : p ∈ gibbsExcess.params) (hu : p.1 ∈ unprinted) (hd : p.2 ≠ some (o p.1)) : gibbsExcess.again o ≠ some (gibbsExcess.state o) :=
  C154_unprinted_lost _ o (by decide) p hp ((by decide : ∀ k ∈ unprinted, k ∉ gibbsExcess.prints.map Prod.fst) p.1 hu) hd

/-- **C154 fails.** A basis set for the equilibrium or for the caloric properties is printed without quotes, which cannot be run. -/
theorem C154_gibbs_basis_fails (o : Attrs) (k s : String) (hk : k = "equilibrium_basis" ∨ k = "caloric_basis") (hs : o k = some (.text s)) : gibbsExcess.again o ≠ some (gibbsExcess.state o) := by
  rcases hk with rfl | rfl
  · exact C154_bare_lost _ o (by decide) (opt "equilibrium_basis") (by simp [gibbsExcess]) s hs (Or.inl rfl)
  · exact C154_bare_lost _ o (by decide) (opt "caloric_basis") (by simp [gibbsExcess]) s hs (Or.inl rfl)

/-- **C154.** Nothing else is lost: with those arguments at their defaults and no basis an activity coefficient liquid is recreated. -/
theorem C154_gibbs (o : Attrs) (ht : ∀ p ∈ gibbsExcess.prints, ∀ s, o p.1 ≠ some (.text s)) (hr : ∀ k ∈ ["VaporPressures", "T", "P"], o k ≠ none)
    (hd : ∀ p ∈ gibbsExcess.params, p.1 ∈ unprinted → p.2 = some (o p.1)) : gibbsExcess.again o = some (gibbsExcess.state o) := by
  refine recreated_of _ o (by decide) (by decide) (fun p hp => shown_ne ((by decide : ∀ p ∈ gibbsExcess.prints, p.2 ≠ .joined ∧ p.2 ≠ .unset) p hp) _) ?_
  intro p hp
  have hc : ∀ p ∈ gibbsExcess.params, (p.1 ∈ unprinted ∧ gibbsExcess.prints.lookup p.1 = none) ∨ ((∃ q ∈ gibbsExcess.prints, q.1 = p.1) ∧ (gibbsExcess.prints.lookup p.1 = some (.always false) ∨
      (gibbsExcess.prints.lookup p.1 = some (.ifSet false) ∧ (p.2 = some none ∨ p.1 ∈ ["VaporPressures", "T", "P"])))) := by decide +kernel
  rcases hc p hp with ⟨h1, h2⟩ | ⟨⟨q, hq, hqp⟩, h2 | ⟨h2, h3⟩⟩
  · exact (kept_unprinted h2).2 (hd p hp h1)
  · exact kept_always h2 fun _ => hqp ▸ ht q hq
  · refine (kept_ifSet h2 (hqp ▸ ht q hq)).2 ?_
    rcases h3 with h3 | h3
    · exact Or.inr h3
    · exact Or.inl (hr _ h3)

/-- **C154 fails.** A solid of activity coefficients can never be printed: it looks for correlations under names it does not store them under. -/
theorem C154_solid_fails (o : Attrs) : gibbsSolid.again o = none := by
  have : gibbsSolid.repr o = none := by
    by_contra h
    obtain ⟨args, ha⟩ := Option.ne_none_iff_exists'.1 h
    exact printAll_some.1 ⟨args, ha⟩ ("SublimationPressures", .unset) (by simp [gibbsSolid]) rfl
  simp [Cls.again, this]

/-- **C154.** Water as a gas or as a liquid is recreated. -/
theorem C154_iapws_gas (o : Attrs) (ht : NoText o ["T", "P", "zs"]) (hT : o "T" ≠ none) (hP : o "P" ≠ none) : iapws95Gas.again o = some (iapws95Gas.state o) := by
  refine recreated_of _ o (by decide) (by decide) (fun p hp => shown_ne ((by decide : ∀ p ∈ iapws95Gas.prints, p.2 ≠ .joined ∧ p.2 ≠ .unset) p hp) _) ?_
  intro p hpp
  simp only [iapws95Gas, List.mem_cons, List.not_mem_nil, or_false] at hpp
  rcases hpp with rfl | rfl | rfl
  · exact (kept_ifSet rfl (ht _ (by simp))).2 (Or.inl hT)
  · exact (kept_ifSet rfl (ht _ (by simp))).2 (Or.inl hP)
  · exact (kept_ifSet rfl (ht _ (by simp [opt]))).2 (Or.inr rfl)

/-- **C154 fails.** Water without a phase prints its enthalpy of formation, a fixed attribute of the class that its constructor does not take. -/
theorem C154_iapws_fails (o : Attrs) (h : o "Hfs" ≠ none) : iapws95.again o = none := by
  unfold Cls.again
  cases hr : iapws95.repr o with
  | none => rfl
  | some args =>
    obtain ⟨s, h1, h2⟩ := printAll_shown hr "Hfs" (.ifSet false) (by simp [iapws95, tail])
    simp only [Option.bind_some, Cls.build]
    rw [if_neg]
    intro hc
    rcases hv : o "Hfs" with _ | v
    · exact h hv
    · rw [hv] at h1
      simp only [Mode.shown, Option.some.injEq] at h1
      have := hc _ (h2 _ h1.symm)
      revert this
      simp [iapws95, opt]

/-- **C154 fails.** Dry air made without arguments is at a pressure of 298.15 Pa; other phases are at 101325 Pa. -/
theorem C154_air_pressure_fails : (dryAir.build []).map (fun l => l.lookup "P") = some (some (some (.num (29815/100)))) ∧ (iapws95Gas.build []).map (fun l => l.lookup "P") = some (some (some (.num 101325))) := ⟨rfl, rfl⟩

/-- **C154 fails.** The specifications, the convergence report, the constants, the correlations, the flasher and the settings of an equilibrium state are not printed. -/
theorem C154_equilibrium_fails (o : Attrs) (p : String × Option (Option Val)) (hp : p ∈ equilibriumState.params) (hu : p.1 ∈ ["flash_specs", "flash_convergence", "constants", "correlations", "flasher", "settings"])
    (hd : p.2 ≠ some (o p.1)) : equilibriumState.again o ≠ some (equilibriumState.state o) :=
  C154_unprinted_lost _ o (by decide) p hp ((by decide : ∀ k ∈ ["flash_specs", "flash_convergence", "constants", "correlations", "flasher", "settings"], k ∉ equilibriumState.prints.map Prod.fst) p.1 hu) hd

/-- **C154.** An equilibrium state made of phases alone is recreated. -/
theorem C154_equilibrium (o : Attrs) (hd : ∀ p ∈ equilibriumState.params, p.2 = none ∨ p.2 = some (o p.1)) : equilibriumState.again o = some (equilibriumState.state o) := by
  refine recreated_of _ o (by decide) (by decide) (fun p hp => shown_ne ((by decide : ∀ p ∈ equilibriumState.prints, p.2 ≠ .joined ∧ p.2 ≠ .unset) p hp) _) ?_
  intro p hp
  have hc : ∀ p ∈ equilibriumState.params, (p.2 ≠ none ∧ equilibriumState.prints.lookup p.1 = none) ∨ equilibriumState.prints.lookup p.1 = some (.always true) := by decide +kernel
  rcases hc p hp with ⟨h1, h2⟩ | h2
  · exact (kept_unprinted h2).2 ((hd p hp).resolve_left h1)
  · exact kept_always h2 fun h => by cases h

/-- **C154.** A flash of one component is recreated exactly if its settings are the default ones. -/
theorem C154_flash_pure (o : Attrs) : flashPure.again o = some (flashPure.state o) ↔ o "settings" = some (.obj 0) := by
  constructor
  · intro h
    have h3 := ((C154_recreated _ o (by decide)).1 h).2.2 ("settings", some (some (.obj 0))) (by simp [flashPure])
    exact (Option.some.inj ((kept_unprinted rfl).1 h3)).symm
  · intro h
    refine recreated_of _ o (by decide) (by decide) (fun p hp => shown_ne ((by decide : ∀ p ∈ flashPure.prints, p.2 ≠ .joined ∧ p.2 ≠ .unset) p hp) _) ?_
    intro p hp
    simp only [flashPure, List.mem_cons, List.not_mem_nil, or_false] at hp
    rcases hp with rfl | rfl | rfl | rfl | rfl | rfl
    iterate 5 exact kept_always (q := true) rfl fun h => by cases h
    exact (kept_unprinted rfl).2 (by rw [h])

/-- **C154 fails.** Arguments of a stream are never recreated: whether there is a flasher is printed in place of it, `True` or `False`. -/
theorem C154_stream_args_fails (specs : List String) (hn : specs.Nodup) (hf : "flasher" ∉ specs) (o : Attrs) (ho : ∀ b, o "flasher" ≠ some (.flag b)) : (streamArgs specs).again o ≠ some ((streamArgs specs).state o) := by
  intro h
  have hn' : ((streamArgs specs).prints.map Prod.fst).Nodup := by
    simp only [streamArgs, List.map_cons, List.map_map, List.nodup_cons]
    have : (Prod.fst ∘ fun k => (k, Mode.ifSet true)) = (id : String → String) := rfl
    rw [this, List.map_id]
    exact ⟨hf, hn⟩
  have h3 := ((C154_recreated _ o hn').1 h).2.2 (opt "flasher") (by simp [streamArgs])
  have hl : (streamArgs specs).prints.lookup "flasher" = some .presence := rfl
  simp only [Kept, opt, hl, Option.bind_some, Mode.shown, id, Expr.lit.injEq] at h3
  exact ho _ h3.symm

/-- **C154.** Settings are recreated exactly if each is set or has no default. -/
theorem C154_bulk (ns : List (String × Option Val)) (hn : (ns.map Prod.fst).Nodup) (o : Attrs) :
    (bulkSettings ns).again o = some ((bulkSettings ns).state o) ↔ ∀ p ∈ ns, o p.1 ≠ none ∨ p.2 = none := by
  have hn' : ((bulkSettings ns).prints.map Prod.fst).Nodup := by
    simp only [bulkSettings, List.map_map]
    exact hn
  have hl : ∀ p ∈ ns, (bulkSettings ns).prints.lookup p.1 = some (.ifSet true) := by
    intro p hp
    simp only [bulkSettings]
    clear hn hn'
    induction ns with
    | nil => cases hp
    | cons q ns ih =>
      by_cases h : p.1 = q.1
      · simp [h]
      · have hb : (p.1 == q.1) = false := by simpa using h
        simp only [List.map_cons, List.lookup_cons, hb]
        rcases List.mem_cons.1 hp with rfl | hp
        · exact absurd rfl h
        · exact ih hp
  have hk : ∀ p ∈ ns, (Kept (bulkSettings ns) o (p.1, some p.2) ↔ o p.1 ≠ none ∨ p.2 = none) := by
    intro p hp
    rw [kept_quoted (hl p hp)]
    simp
  constructor
  · intro h p hp
    exact (hk p hp).1 (((C154_recreated _ o hn').1 h).2.2 _ (List.mem_map.2 ⟨p, hp, rfl⟩))
  · intro h
    refine recreated_of _ o hn' ?_ ?_ ?_
    · intro p hp
      obtain ⟨q, hq, rfl⟩ := List.mem_map.1 hp
      simp only [bulkSettings, List.map_map]
      exact List.mem_map.2 ⟨q, hq, rfl⟩
    · intro p hp
      obtain ⟨q, hq, rfl⟩ := List.mem_map.1 hp
      exact shown_ne ⟨by simp, by simp⟩ _
    · intro p hp
      obtain ⟨q, hq, rfl⟩ := List.mem_map.1 hp
      exact (hk q hq).2 (h q hq)

/-- **C154.** Energy streams and the ideal and Hansen activity models are recreated. -/
theorem C154_small (o : Attrs) (hQ : ∀ s, o "Q" ≠ some (.text s)) :
    energyStream.again o = some (energyStream.state o) ∧ idealSolution.again o = some (idealSolution.state o) ∧ hansen.again o = some (hansen.state o) := by
  refine ⟨?_, ?_, ?_⟩
  · refine recreated_of _ o (by decide) (by decide) (fun p hp => shown_ne ((by decide : ∀ p ∈ energyStream.prints, p.2 ≠ .joined ∧ p.2 ≠ .unset) p hp) _) ?_
    intro p hp
    simp only [energyStream, List.mem_cons, List.not_mem_nil, or_false] at hp
    subst hp
    exact kept_always (q := false) rfl fun _ => hQ
  · refine recreated_of _ o (by decide) (by decide) (fun p hp => shown_ne ((by decide : ∀ p ∈ idealSolution.prints, p.2 ≠ .joined ∧ p.2 ≠ .unset) p hp) _) ?_
    intro p hp
    exact kept_always ((by decide +kernel : ∀ p ∈ idealSolution.params, idealSolution.prints.lookup p.1 = some (.always true)) p hp) fun h => by cases h
  · refine recreated_of _ o (by decide) (by decide) (fun p hp => shown_ne ((by decide : ∀ p ∈ hansen.prints, p.2 ≠ .joined ∧ p.2 ≠ .unset) p hp) _) ?_
    intro p hp
    exact kept_always ((by decide +kernel : ∀ p ∈ hansen.params, hansen.prints.lookup p.1 = some (.always true)) p hp) fun h => by cases h

/-! ### Examples -/

/-- A gas of two components. -/
def sample : Attrs := fun k =>
  if k = "HeatCapacityGases" then some (.items [some 1, some 2]) else if k = "T" then some (.num 300) else if k = "P" then some (.num 100000) else if k = "zs" then some (.obj 7)
  else if k = "VaporPressures" then some (.items [some 3, some 4]) else if k = "eos_class" then some (.obj 1) else if k = "eos_kwargs" then some (.obj 2) else if k = "model" then some (.obj 3)
  else if k = "B_mixing_rule" then some (.text "linear") else if k = "C_mixing_rule" then some (.text "linear") else none

example : NoText sample ["eos_class", "eos_kwargs", "Hfs", "Gfs", "Sfs", "T", "P", "zs"] := by
  intro k hk s
  simp only [List.mem_cons, List.not_mem_nil, or_false] at hk
  rcases hk with rfl | rfl | rfl | rfl | rfl | rfl | rfl | rfl <;> simp [sample]

example : idealGas.again sample = some (idealGas.state sample) := by decide +kernel
example : ceosPhase.again sample = some (ceosPhase.state sample) := by decide +kernel
example : virialGas.again sample = some (virialGas.state sample) := by decide +kernel
example : iapws95Gas.again sample = some (iapws95Gas.state sample) := by decide +kernel
example : idealGas.again (fun _ => none) = none := by decide +kernel
example : (idealGas.repr sample) = some [("HeatCapacityGases", .lit (some (.items [some 1, some 2]))), ("T", .lit (some (.num 300))), ("P", .lit (some (.num 100000))), ("zs", .lit (some (.obj 7)))] := by decide +kernel
/-- A temperature not set comes back as the default. -/
example : (idealGas.again fun k => if k = "T" then none else sample k).map (fun l => l.lookup "T") = some (some (some (.num (29815/100)))) := by decide +kernel
/-- A liquid with all unprinted arguments at their defaults, one with a Poynting correction, one with a basis. -/
def liquid : Attrs := fun k =>
  if k ∈ ["use_Hvap_caloric", "use_Poynting", "use_phis_sat", "use_Tait", "use_eos_volume"] then some (.flag false) else if k = "henry_mode" then some (.text "solvents_with_parameters")
  else if k = "Psat_extrpolation" then some (.text "AB") else sample k
example : gibbsExcess.again liquid = some (gibbsExcess.state liquid) := by decide +kernel
example : (gibbsExcess.again fun k => if k = "use_Poynting" then some (.flag true) else liquid k).map (fun l => l.lookup "use_Poynting") = some (some (some (.flag false))) := by decide +kernel
example : gibbsExcess.again (fun k => if k = "equilibrium_basis" then some (.text "Psat") else liquid k) = none := by decide +kernel
example : (ceosPhase.again fun k => if k = "HeatCapacityGases" then none else sample k).map (fun l => l.lookup "HeatCapacityGases") = some (some (some (.items []))) := by decide +kernel
example : (equilibriumState.again fun k => if k = "settings" then some (.obj 0) else if k = "flasher" then some (.obj 5) else sample k).map (fun l => l.lookup "flasher") = some (some none) := by decide +kernel
example : equilibriumState.again (fun k => if k = "settings" then some (.obj 0) else sample k) ≠ none := by decide +kernel
example : (streamArgs ["T", "P"]).again (fun k => if k = "flasher" then some (.obj 5) else sample k) = some [("flasher", some (.flag true)), ("T", some (.num 300)), ("P", some (.num 100000))] := by decide +kernel
example : (bulkSettings [("VL_ID", some (.text "PIP")), ("VL_ID_settings", none)]).again (fun k => if k = "VL_ID" then some (.text "Wilson") else none) = some [("VL_ID", some (.text "Wilson")), ("VL_ID_settings", none)] := by
  decide +kernel

/-! ## Derived entropies -/

/-- `Sfs` of an ideal gas (ideal_gas.py 101-107) from lists without `None`. -/
def entropies (Hfs Gfs Sfs : Option (List ℚ)) : Option (List ℚ) :=
  match Sfs with
  | some s => some s
  | none =>
    match Hfs, Gfs with
    | some h, some g => some (List.zipWith (fun a b => (a - b) * (1/(29815/100))) h g)
    | _, _ => none

/-- **C154.** The entropies of formation an ideal gas derives are those it prints, and a gas made from its printed form has them again; for each component they are the difference of enthalpy and Gibbs energy by 298.15 K. -/
theorem C154_entropies (Hfs Gfs Sfs : Option (List ℚ)) : entropies Hfs Gfs (entropies Hfs Gfs Sfs) = entropies Hfs Gfs Sfs ∧ (∀ s, entropies Hfs Gfs (some s) = some s) ∧
    ∀ h g : List ℚ, ∀ i, ∀ (hh : i < h.length) (hg : i < g.length), ∃ s, entropies (some h) (some g) none = some s ∧ ∃ hi : i < s.length, s[i] * (29815/100) = h[i] - g[i] := by
  refine ⟨?_, fun s => rfl, ?_⟩
  · cases Sfs <;> cases Hfs <;> cases Gfs <;> rfl
  · intro h g i hh hg
    refine ⟨_, rfl, by simp [hh, hg], ?_⟩
    simp only [List.getElem_zipWith]
    ring

example : entropies (some [-241822]) (some [-228554]) none = some [(-241822 + 228554) / (29815/100)] := by norm_num [entropies]

/-! ## Constants -/

/-- Printed constants (chemical_package.py 825-827): those with any value. -/
def printed (o : List (String × List (Option ℕ))) : List (String × List (Option ℕ)) := o.filter fun p => p.2.any Option.isSome

/-- The constructor (1077-1100): as many components as molecular weights, which must be given; constants not given are lists of `None`. -/
def package (names : List String) (args : List (String × List (Option ℕ))) : Option (List (String × List (Option ℕ))) :=
  (args.lookup "MWs").map fun w => names.map fun k => (k, (args.lookup k).getD (List.replicate w.length none))

theorem lookup_printed : ∀ (o : List (String × List (Option ℕ))), (o.map Prod.fst).Nodup → ∀ p ∈ o, (printed o).lookup p.1 = if p.2.any Option.isSome then some p.2 else none
  | [], _, p, hp => by cases hp
  | q :: o, hn, p, hp => by
    simp only [List.map_cons, List.nodup_cons] at hn
    rcases List.mem_cons.1 hp with rfl | hp
    · unfold printed
      by_cases h : p.2.any Option.isSome
      · rw [List.filter_cons_of_pos (by simpa using h), if_pos h]
        change List.lookup p.1 ((p.1, p.2) :: _) = _
        simp only [List.lookup_cons, beq_self_eq_true]
      · rw [List.filter_cons_of_neg (by simpa using h), if_neg h, List.lookup_eq_none_iff]
        intro r hr
        by_contra hc
        refine hn.1 (List.mem_map.2 ⟨r, (List.mem_filter.1 hr).1, ?_⟩)
        exact Eq.symm (by simpa using hc)
    · have ih := lookup_printed o hn.2 p hp
      have hne : p.1 ≠ q.1 := fun h => hn.1 (h ▸ List.mem_map.2 ⟨p, hp, rfl⟩)
      have hb : (p.1 == q.1) = false := by simpa using hne
      rw [← ih]
      unfold printed
      by_cases h : q.2.any Option.isSome
      · rw [List.filter_cons_of_pos (by simpa using h)]
        have : q = (q.1, q.2) := rfl
        rw [this, List.lookup_cons, hb]
      · rw [List.filter_cons_of_neg (by simpa using h)]

/-- **C154.** A package of constants of `N` components is recreated exactly if a molecular weight is known. -/
theorem C154_constants (N : ℕ) (o : List (String × List (Option ℕ))) (hn : (o.map Prod.fst).Nodup) (hN : ∀ p ∈ o, p.2.length = N) (w : List (Option ℕ)) (hw : ("MWs", w) ∈ o) :
    package (o.map Prod.fst) (printed o) = some o ↔ w.any Option.isSome := by
  have hl := lookup_printed o hn _ hw
  unfold package
  simp only at hl
  rw [hl]
  by_cases h : w.any Option.isSome
  · simp only [h, if_true, Option.map_some, Option.some.injEq, iff_true, List.map_map]
    conv_rhs => rw [← List.map_id o]
    apply List.map_congr_left
    intro p hp
    simp only [Function.comp, id]
    rw [lookup_printed o hn p hp]
    by_cases hp2 : p.2.any Option.isSome
    · simp [hp2]
    · simp only [hp2, Bool.false_eq_true, if_false, Option.getD_none]
      have : List.replicate w.length none = p.2 := by
        have h1 : w.length = p.2.length := by rw [hN _ hp, ← hN _ hw]
        rw [h1]
        refine (List.eq_replicate_iff.2 ⟨rfl, ?_⟩).symm
        intro b hb
        cases b with
        | none => rfl
        | some v =>
          exfalso
          exact hp2 (List.any_eq_true.2 ⟨some v, hb, rfl⟩)
      rw [this]
  · simp [h]

example : package ["MWs", "Tcs", "Pcs"] (printed [("MWs", [some 18, none]), ("Tcs", [none, none]), ("Pcs", [none, some 5])]) = some [("MWs", [some 18, none]), ("Tcs", [none, none]), ("Pcs", [none, some 5])] := by decide +kernel
example : package ["MWs", "Tcs"] (printed [("MWs", [none]), ("Tcs", [some 647])]) = none := by decide +kernel

/-! ## The text -/

/-- `_make_str` of the constants (824-829) with the parts `k=value` to print: the last two characters are cut whatever they are. -/
def makeStr (name : List Char) (delim : List Char) (parts : List (List Char)) : List Char :=
  let s := name ++ ['('] ++ (parts.map (· ++ delim)).flatten
  s.take (s.length - 2) ++ [')']

/-- Phases cut only a trailing comma and blank (ideal_gas.py 148-154). -/
def phaseStr (name : List Char) (parts : List (List Char)) : List Char :=
  let s := name ++ ['('] ++ (parts.map (· ++ [',', ' '])).flatten
  (if s.drop (s.length - 2) = [',', ' '] then s.take (s.length - 2) else s) ++ [')']

/-- `_make_str` of the correlations (1591-1603): each part but the last is followed by the delimiter and a line break. -/
def correlationsStr (name : List Char) (delim : List Char) (parts : List (List Char)) (last : List Char) : List Char :=
  let s := name ++ ['('] ++ (parts.map (· ++ delim ++ ['\n'])).flatten ++ last ++ delim
  s.take (s.length - 2) ++ [')']

theorem flatten_last (delim : List Char) (parts : List (List Char)) (p : List Char) :
    ((parts ++ [p]).map (· ++ delim)).flatten = (parts.map (· ++ delim)).flatten ++ p ++ delim := by simp

theorem intercalate_last (delim : List Char) : ∀ (parts : List (List Char)) (p : List Char), delim.intercalate (parts ++ [p]) = (parts.map (· ++ delim)).flatten ++ p
  | [], p => by simp [List.intercalate]
  | [a], p => by simp [List.intercalate, List.intersperse]
  | a :: b :: l, p => by
    have ih := intercalate_last delim (b :: l) p
    simp only [List.intercalate, List.cons_append, List.map_cons, List.flatten_cons] at ih ⊢
    rw [List.intersperse_cons₂]
    simp only [List.flatten_cons, List.append_assoc] at ih ⊢
    rw [ih]

/-- **C154.** With a delimiter of two characters and something to print the constants are printed as a call with the parts separated by the delimiter. -/
theorem C154_text (name delim : List Char) (parts : List (List Char)) (hd : delim.length = 2) (hp : parts ≠ []) : makeStr name delim parts = name ++ ['('] ++ delim.intercalate parts ++ [')'] := by
  obtain ⟨ps, p, rfl⟩ : ∃ ps p, parts = ps ++ [p] := ⟨parts.dropLast, parts.getLast hp, (List.dropLast_append_getLast hp).symm⟩
  simp only [makeStr]
  rw [flatten_last, intercalate_last]
  congr 1
  have : (name ++ ['('] ++ ((ps.map (· ++ delim)).flatten ++ p ++ delim)) = (name ++ ['('] ++ ((ps.map (· ++ delim)).flatten ++ p)) ++ delim := by simp
  rw [this, List.length_append, hd, Nat.add_sub_cancel, List.take_left]

/-- **C154 fails.** Asked for constants none of which is known, a package prints its name cut by one letter and no opening bracket. -/
theorem C154_text_empty_fails : makeStr "ChemicalConstantsPackage".toList [',', ' '] [] = "ChemicalConstantsPackag)".toList := by decide +kernel

/-- **C154 fails.** With a delimiter of one character the last printed character is lost, with one of three the first of the delimiter stays. -/
theorem C154_text_delimiter_fails (name : List Char) (d1 d2 d3 a z : Char) : makeStr name [d1] [[a, z]] = name ++ ['(', a, ')'] ∧ makeStr name [d1, d2, d3] [[a, z]] = name ++ ['(', a, z, d1, ')'] := by
  constructor
  · simp only [makeStr, List.map_cons, List.map_nil, List.flatten_cons, List.flatten_nil, List.append_nil]
    have : name ++ ['('] ++ ([a, z] ++ [d1]) = (name ++ ['(', a]) ++ [z, d1] := by simp
    rw [this, List.length_append, show [z, d1].length = 2 from rfl, Nat.add_sub_cancel, List.take_left]
    simp
  · simp only [makeStr, List.map_cons, List.map_nil, List.flatten_cons, List.flatten_nil, List.append_nil]
    have : name ++ ['('] ++ ([a, z] ++ [d1, d2, d3]) = (name ++ ['(', a, z, d1]) ++ [d2, d3] := by simp
    rw [this, List.length_append, show [d2, d3].length = 2 from rfl, Nat.add_sub_cancel, List.take_left]
    simp

/-- **C154.** Phases print a call for any parts, none included. -/
theorem C154_text_phase (name : List Char) (parts : List (List Char)) : phaseStr name parts = name ++ ['('] ++ [',', ' '].intercalate parts ++ [')'] := by
  by_cases hp : parts = []
  · subst hp
    simp only [phaseStr, List.map_nil, List.flatten_nil, List.append_nil]
    have : (name ++ ['(']).drop ((name ++ ['(']).length - 2) ≠ [',', ' '] := by
      intro h
      have h2 := congrArg List.getLast? h
      have hlen : ((name ++ ['(']).drop ((name ++ ['(']).length - 2)) ≠ [] := by rw [h]; simp
      rw [List.getLast?_eq_some_getLast hlen, List.getLast_drop] at h2
      simp at h2
    rw [if_neg this]
    simp [List.intercalate]
  · obtain ⟨ps, p, rfl⟩ : ∃ ps p, parts = ps ++ [p] := ⟨parts.dropLast, parts.getLast hp, (List.dropLast_append_getLast hp).symm⟩
    simp only [phaseStr]
    rw [flatten_last, intercalate_last]
    have : (name ++ ['('] ++ ((ps.map (· ++ [',', ' '])).flatten ++ p ++ [',', ' '])) = (name ++ ['('] ++ ((ps.map (· ++ [',', ' '])).flatten ++ p)) ++ [',', ' '] := by simp
    rw [this, List.length_append, show [',', ' '].length = 2 from rfl, Nat.add_sub_cancel, List.drop_left, if_pos rfl, List.take_left]

/-- **C154.** Correlations are printed as a call too, the parts separated by the delimiter and a line break, for delimiters of two characters. -/
theorem C154_text_correlations (name delim : List Char) (parts : List (List Char)) (last : List Char) (hd : delim.length = 2) :
    correlationsStr name delim parts last = name ++ ['('] ++ (delim ++ ['\n']).intercalate (parts ++ [last]) ++ [')'] := by
  simp only [correlationsStr]
  rw [intercalate_last]
  congr 1
  rw [List.length_append, hd, Nat.add_sub_cancel, List.take_left]
  simp

example : makeStr "P".toList ", ".toList ["a=1".toList, "b=2".toList] = "P(a=1, b=2)".toList := by decide +kernel
example : phaseStr "IAPWS95Gas".toList [] = "IAPWS95Gas()".toList := by decide +kernel
example : correlationsStr "C".toList ", ".toList ["a=1".toList] "s=True".toList = "C(a=1, \ns=True)".toList := by decide +kernel

end Verif.Repr
