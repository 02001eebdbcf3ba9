import Verif.Chem.ConstantsPackage

/-!
# Packages of correlations (`thermo/chemical_package.py` 1457-1927, 122-490)

* C120: `PropertyCorrelationsPackage`: default objects and the objects they refer to, `skip_missing`, addition, subsets; the objects made by `_from_IDs`.

An object is one that was handed over, or one built for a property and a component, with or without the user's own data for that component
(`user_chemical_property_lookup`), referring to other objects by argument name. Constants handed to the objects are not modelled. Exceptions are `none`.
-/

namespace Verif.CorrPack

open Verif.ConstPack

/-- Objects. -/
inductive Obj where
  | given (n : ℕ)
  | built (p : String) (i : ℕ) (user : Bool) (refs : String → Option Obj)

instance : Inhabited Obj := ⟨.given 0⟩

/-- How the objects of a property are built: whether user data are looked up, and from which lists the arguments that are objects are taken. -/
structure Row where
  (p : String) (user : Bool) (refs : List (String × String))

/-- `__init__` (1734-1836), in the order of the code. -/
def defaultRows : List Row :=
  [⟨"VaporPressures", true, []⟩,
   ⟨"VolumeLiquids", true, [("Psat", "VaporPressures")]⟩,
   ⟨"VolumeGases", false, []⟩,
   ⟨"VolumeSolids", false, []⟩,
   ⟨"HeatCapacityGases", true, []⟩,
   ⟨"HeatCapacitySolids", true, []⟩,
   ⟨"HeatCapacityLiquids", true, [("Cpgm", "HeatCapacityGases")]⟩,
   ⟨"EnthalpyVaporizations", true, []⟩,
   ⟨"EnthalpySublimations", false, [("Cpg", "HeatCapacityGases"), ("Cps", "HeatCapacitySolids"), ("Hvap", "EnthalpyVaporizations")]⟩,
   ⟨"SublimationPressures", false, []⟩,
   ⟨"PermittivityLiquids", false, []⟩,
   ⟨"ViscosityLiquids", false, [("Psat", "VaporPressures"), ("Vml", "VolumeLiquids")]⟩,
   ⟨"ViscosityGases", false, [("Vmg", "VolumeGases")]⟩,
   ⟨"ThermalConductivityLiquids", false, []⟩,
   ⟨"ThermalConductivitySolids", false, []⟩,
   ⟨"ThermalConductivityGases", false, [("Vmg", "VolumeGases"), ("mug", "ViscosityLiquids"), ("Cpgm", "HeatCapacityGases")]⟩,
   ⟨"SurfaceTensions", false, [("Vml", "VolumeLiquids"), ("Cpl", "HeatCapacityLiquids")]⟩]

/-- `_from_IDs` (161-163, 180-182, 208-210, 217-221, 236, 297-310, 387-390, 458-481), in the order of the code. -/
def fromIDsRows : List Row :=
  [⟨"VaporPressures", true, []⟩,
   ⟨"EnthalpyVaporizations", true, []⟩,
   ⟨"VolumeGases", false, []⟩,
   ⟨"VolumeLiquids", true, [("Psat", "VaporPressures")]⟩,
   ⟨"VolumeSolids", true, []⟩,
   ⟨"HeatCapacityGases", true, []⟩,
   ⟨"HeatCapacitySolids", true, []⟩,
   ⟨"HeatCapacityLiquids", true, [("Cpgm", "HeatCapacityGases")]⟩,
   ⟨"EnthalpySublimations", true, [("Cpg", "HeatCapacityGases"), ("Cps", "HeatCapacitySolids"), ("Hvap", "EnthalpyVaporizations")]⟩,
   ⟨"SurfaceTensions", true, [("Vml", "VolumeLiquids"), ("Cpl", "HeatCapacityLiquids")]⟩,
   ⟨"SublimationPressures", true, []⟩,
   ⟨"PermittivityLiquids", true, []⟩,
   ⟨"ViscosityLiquids", true, [("Psat", "VaporPressures"), ("Vml", "VolumeLiquids")]⟩,
   ⟨"ViscosityGases", true, [("Vmg", "VolumeGases")]⟩,
   ⟨"ThermalConductivityLiquids", true, []⟩,
   ⟨"ThermalConductivitySolids", true, []⟩,
   ⟨"ThermalConductivityGases", true, [("Vmg", "VolumeGases"), ("Cpgm", "HeatCapacityGases"), ("mug", "ViscosityGases")]⟩]

/-- `pure_correlations` (1547-1554). -/
def pureNames : List String :=
  ["VaporPressures", "VolumeLiquids", "VolumeGases", "VolumeSolids", "HeatCapacityGases", "HeatCapacitySolids", "HeatCapacityLiquids", "EnthalpyVaporizations",
   "EnthalpySublimations", "SublimationPressures", "PermittivityLiquids", "ViscosityLiquids", "ViscosityGases", "ThermalConductivityLiquids",
   "ThermalConductivityGases", "ThermalConductivitySolids", "SurfaceTensions"]

/-- `mixture_correlations` (1555-1559). -/
def mixtureNames : List String :=
  ["VolumeGasMixture", "VolumeLiquidMixture", "VolumeSolidMixture", "HeatCapacityGasMixture", "HeatCapacityLiquidMixture", "HeatCapacitySolidMixture",
   "ViscosityGasMixture", "ViscosityLiquidMixture", "ThermalConductivityGasMixture", "ThermalConductivityLiquidMixture", "SurfaceTensionMixture"]

abbrev St := String → Option (List Obj)

/-- The object a list holds for component `i`. -/
def own (st : St) (q : String) (i : ℕ) : Option Obj := (st q).bind fun l => l[i]?

/-- One object of a row. -/
def buildObj (st : St) (r : Row) (i : ℕ) : Option Obj :=
  if r.refs.all (fun q => (own st q.2 i).isSome) then some (.built r.p i r.user fun a => (r.refs.lookup a).bind fun q => own st q i) else none

/-- One statement `if X is None and not skip_missing: X = [...]`. -/
def buildRow (N : ℕ) (skip : Bool) (st : St) (r : Row) : Option St :=
  if skip || (st r.p).isSome then some st
  else match (List.range N).mapM (buildObj st r) with
    | some l => some (Function.update st r.p (some l))
    | none => none

def buildAll (N : ℕ) (skip : Bool) : List Row → St → Option St
  | [], st => some st
  | r :: rs, st => match buildRow N skip st r with
    | some st' => buildAll N skip rs st'
    | none => none

/-- The package. -/
structure Corr where
  (consts : Pack) (skip : Bool) (pure : St) (mix : String → Option Obj)

/-- Lines 1858-1899: mixture objects. -/
def mixObjs (skip : Bool) (given : String → Option Obj) : String → Option Obj := fun m =>
  match given m with
  | some o => some o
  | none => if skip then none else if m ∈ mixtureNames then some (.built m 0 false fun _ => none) else none

/-- `__init__` (1715-1899). -/
def mkCorr (c : Pack) (skip : Bool) (given : St) (mix : String → Option Obj) : Option Corr :=
  match buildAll c.N skip defaultRows given with
  | some st => some ⟨c, skip, st, mixObjs skip mix⟩
  | none => none

/-- `a_dict[k] + b_dict[k]` (1676). -/
def plus (a b : Option (List Obj)) : Option (List Obj) :=
  match a, b with
  | some x, some y => some (x ++ y)
  | _, _ => none

/-- `__add__` (1666-1677): `None` cannot be added; `True + False` counts as true. -/
def add (a b : Corr) : Option Corr :=
  match ConstPack.add a.consts b.consts with
  | none => none
  | some c =>
    if pureNames.all (fun p => (plus (a.pure p) (b.pure p)).isSome) then
      mkCorr c (a.skip || b.skip) (fun p => if p ∈ pureNames then plus (a.pure p) (b.pure p) else none) (fun _ => none)
    else none

/-- `atindexes` (1701-1704). -/
def atIndexes : Sel → List Obj → Option (List Obj)
  | .slice a b, v => some ((v.drop a).take (b - a))
  | .list l, v => l.mapM (pyGet v)
  | .all, _ => none

/-- `subset` (1679-1712). -/
def subset (a : Corr) (s : Sel) : Option Corr :=
  match ConstPack.subset a.consts s none with
  | none => none
  | some c =>
    let f : String → Option (List Obj) := fun p => (a.pure p).bind (atIndexes s)
    if pureNames.all (fun p => (a.pure p).isNone || (f p).isSome) then
      mkCorr c a.skip (fun p => if p ∈ pureNames then f p else none) (fun _ => none)
    else none

/-! ## C120: default objects -/

/-- Rows refer only to earlier rows, and no property is built twice. -/
def Ordered : List String → List Row → Prop
  | _, [] => True
  | seen, r :: rs => r.p ∉ seen ∧ (∀ q ∈ r.refs, q.2 ∈ seen) ∧ Ordered (r.p :: seen) rs

theorem build_skip (N : ℕ) : ∀ (rs : List Row) (st : St), buildAll N true rs st = some st
  | [], _ => rfl
  | r :: rs, st => by simp [buildAll, buildRow, build_skip N rs st]

theorem ordered_not {seen : List String} : ∀ {rs : List Row} {seen : List String}, Ordered seen rs → ∀ r ∈ rs, r.p ∉ seen
  | [], _, _, r, h => by simp at h
  | r :: rs, seen, h, x, hx => by
    rcases List.mem_cons.1 hx with e | e
    · rw [e]; exact h.1
    · intro hs
      exact ordered_not (seen := []) h.2.2 x e (List.mem_cons_of_mem _ hs)

theorem lookup_refs {a q : String} : ∀ {l : List (String × String)}, l.lookup a = some q → (a, q) ∈ l
  | [], h => by simp at h
  | (b, w) :: l, h => by
    rw [List.lookup_cons] at h
    cases e : (a == b) with
    | true => rw [e] at h; simp only [Option.some.injEq] at h; rw [← h, beq_iff_eq.1 e]; simp
    | false => rw [e] at h; exact List.mem_cons_of_mem _ (lookup_refs h)

theorem build_spec (N : ℕ) : ∀ (rs : List Row) (seen : List String) (st : St), Ordered seen rs → (∀ q ∈ seen, ∃ l, st q = some l ∧ l.length = N) →
    (∀ r ∈ rs, ∀ l, st r.p = some l → l.length = N) →
    ∃ st', buildAll N false rs st = some st' ∧ (∀ q l, st q = some l → st' q = some l) ∧ (∀ q, (∀ r ∈ rs, r.p ≠ q) → st' q = st q) ∧
      (∀ r ∈ rs, ∃ l, st' r.p = some l ∧ l.length = N) ∧
      ∀ r ∈ rs, st r.p = none → ∀ i < N, own st' r.p i = some (.built r.p i r.user fun a => (r.refs.lookup a).bind fun q => own st' q i)
  | [], _, st, _, _, _ => ⟨st, rfl, fun _ _ h => h, fun _ _ => rfl, by simp, by simp⟩
  | r :: rs, seen, st, ho, hs, hl => by
    obtain ⟨h1, h2, h3⟩ := ho
    cases hr : st r.p with
    | some l0 =>
      have hb : buildRow N false st r = some st := by simp [buildRow, hr]
      obtain ⟨st', e, k1, k2, k3, k4⟩ := build_spec N rs (r.p :: seen) st h3
        (fun q hq => by
          rcases List.mem_cons.1 hq with h | h
          · rw [h]; exact ⟨l0, hr, hl r (by simp) l0 hr⟩
          · exact hs q h)
        (fun x hx => hl x (List.mem_cons_of_mem _ hx))
      refine ⟨st', by simp [buildAll, hb, e], k1, fun q hq => k2 q fun x hx => hq x (List.mem_cons_of_mem _ hx), fun x hx => ?_, fun x hx hn => ?_⟩
      · rcases List.mem_cons.1 hx with h | h
        · rw [h]; exact ⟨l0, k1 _ _ hr, hl r (by simp) l0 hr⟩
        · exact k3 x h
      · rcases List.mem_cons.1 hx with h | h
        · rw [h, hr] at hn; simp at hn
        · exact k4 x h hn
    | none =>
      have hob : ∀ i ∈ List.range N, buildObj st r i = some (.built r.p i r.user fun a => (r.refs.lookup a).bind fun q => own st q i) := by
        intro i hi
        unfold buildObj
        rw [if_pos]
        rw [List.all_eq_true]
        intro q hq
        obtain ⟨l, hl1, hl2⟩ := hs q.2 (h2 q hq)
        have : i < l.length := by rw [hl2]; simpa using hi
        simp [own, hl1, this]
      obtain ⟨L, hL⟩ : ∃ L, L = (List.range N).map fun i => Obj.built r.p i r.user fun a => (r.refs.lookup a).bind fun q => own st q i := ⟨_, rfl⟩
      have hb : buildRow N false st r = some (Function.update st r.p (some L)) := by
        simp only [buildRow, hr, Option.isSome_none, Bool.or_false, Bool.false_eq_true, if_false]
        rw [mapM_some hob, hL]
      have hLl : L.length = N := by rw [hL]; simp
      have hne : ∀ x ∈ rs, x.p ≠ r.p := fun x hx e => ordered_not (seen := []) h3 x hx (by rw [e]; simp)
      obtain ⟨st', e, k1, k2, k3, k4⟩ := build_spec N rs (r.p :: seen) (Function.update st r.p (some L)) h3
        (fun q hq => by
          by_cases h : q = r.p
          · rw [h, Function.update_self]; exact ⟨L, rfl, hLl⟩
          · rw [Function.update_of_ne h]
            rcases List.mem_cons.1 hq with h' | h'
            · exact absurd h' h
            · exact hs q h')
        (fun x hx l hxl => by
          rw [Function.update_of_ne (hne x hx)] at hxl
          exact hl x (List.mem_cons_of_mem _ hx) l hxl)
      have hrp : st' r.p = some L := k1 _ _ (Function.update_self ..)
      refine ⟨st', by simp [buildAll, hb, e], fun q l h => k1 q l ?_, fun q hq => ?_, fun x hx => ?_, fun x hx hn i hi => ?_⟩
      · have : q ≠ r.p := fun e => by rw [e, hr] at h; simp at h
        rw [Function.update_of_ne this]; exact h
      · rw [k2 q fun x hx => hq x (List.mem_cons_of_mem _ hx), Function.update_of_ne (Ne.symm (hq r (by simp)))]
      · rcases List.mem_cons.1 hx with h | h
        · rw [h]; exact ⟨L, hrp, hLl⟩
        · exact k3 x h
      · rcases List.mem_cons.1 hx with h | h
        · subst h
          have hsame : ∀ q ∈ x.refs, own st' q.2 i = own st q.2 i := fun q hq => by
            obtain ⟨l, hl1, _⟩ := hs q.2 (h2 q hq)
            have hqne : q.2 ≠ x.p := fun e => h1 (by rw [← e]; exact h2 q hq)
            have : st' q.2 = some l := k1 _ _ (by rw [Function.update_of_ne hqne]; exact hl1)
            simp [own, this, hl1]
          have hval : own st' x.p i = some (.built x.p i x.user fun a => (x.refs.lookup a).bind fun q => own st q i) := by
            simp [own, hrp, hL, hi]
          rw [hval]
          congr 2
          funext a
          cases hla : x.refs.lookup a with
          | none => rfl
          | some q =>
            have : (a, q) ∈ x.refs := lookup_refs hla
            simp only [Option.bind_some]
            exact (hsame _ this).symm
        · exact k4 x h (by rw [Function.update_of_ne (hne x h)]; exact hn) i hi

theorem default_ordered : Ordered [] defaultRows := by
  simp [Ordered, defaultRows]

theorem fromIDs_ordered : Ordered [] fromIDsRows := by
  simp [Ordered, fromIDsRows]

/-- C120: with `skip_missing` the package holds exactly the lists handed over; without it every property has a list, those handed over are kept, and every object that
had to be built refers to the package's own objects for the same component, by the table `defaultRows`. -/
theorem C120_defaults (c : Pack) (given : St) (mix : String → Option Obj) (hg : ∀ p l, given p = some l → l.length = c.N) :
    (∃ r, mkCorr c true given mix = some r ∧ r.pure = given ∧ r.mix = mix) ∧
    ∃ r, mkCorr c false given mix = some r ∧ (∀ p l, given p = some l → r.pure p = some l) ∧ (∀ p ∈ pureNames, ∃ l, r.pure p = some l ∧ l.length = c.N) ∧
      (∀ m ∈ mixtureNames, (r.mix m).isSome) ∧ (∀ m o, mix m = some o → r.mix m = some o) ∧
      ∀ row ∈ defaultRows, given row.p = none → ∀ i < c.N,
        own r.pure row.p i = some (.built row.p i row.user fun a => (row.refs.lookup a).bind fun q => own r.pure q i) := by
  constructor
  · refine ⟨⟨c, true, given, mixObjs true mix⟩, by simp [mkCorr, build_skip], rfl, ?_⟩
    funext m
    simp only [mixObjs]
    cases mix m <;> rfl
  · obtain ⟨st, e, k1, _, k3, k4⟩ := build_spec c.N defaultRows [] given default_ordered (by simp) (fun r _ l h => hg _ _ h)
    refine ⟨⟨c, false, st, mixObjs false mix⟩, by simp [mkCorr, e], k1, fun p hp => ?_, fun m hm => ?_, fun m o h => by simp [mixObjs, h], k4⟩
    · obtain ⟨row, hrow, rfl⟩ : ∃ row ∈ defaultRows, row.p = p := by
        have : p ∈ defaultRows.map (·.p) := by
          revert p; decide +kernel
        simpa using this
      exact k3 row hrow
    · simp only [mixObjs]
      cases mix m with
      | some o => rfl
      | none => simp [hm]

/-- C120: in `_from_IDs` every object refers to the objects made there for the same component. -/
theorem C120_from_IDs (N : ℕ) : ∃ st, buildAll N false fromIDsRows (fun _ => none) = some st ∧ (∀ p ∈ pureNames, ∃ l, st p = some l ∧ l.length = N) ∧
    ∀ row ∈ fromIDsRows, ∀ i < N, own st row.p i = some (.built row.p i row.user fun a => (row.refs.lookup a).bind fun q => own st q i) := by
  obtain ⟨st, e, _, _, k3, k4⟩ := build_spec N fromIDsRows [] (fun _ => none) fromIDs_ordered (by simp) (by simp)
  refine ⟨st, e, fun p hp => ?_, fun row hr i hi => k4 row hr rfl i hi⟩
  obtain ⟨row, hrow, rfl⟩ : ∃ row ∈ fromIDsRows, row.p = p := by
    have : p ∈ fromIDsRows.map (·.p) := by
      revert p; decide +kernel
    simpa using this
  exact k3 row hrow

example : ∃ r, mkCorr demo false (fun _ => none) (fun _ => none) = some r ∧ own r.pure "VolumeLiquids" 1 =
    some (.built "VolumeLiquids" 1 true fun a => (([("Psat", "VaporPressures")] : List (String × String)).lookup a).bind fun q => own r.pure q 1) := by
  obtain ⟨r, h, _, _, _, _, h6⟩ := (C120_defaults demo (fun _ => none) (fun _ => none) (by simp)).2
  exact ⟨r, h, h6 ⟨"VolumeLiquids", true, [("Psat", "VaporPressures")]⟩ (by simp [defaultRows]) rfl 1 (by rw [demo_wf.2]; decide)⟩

/-- The object an argument of an object refers to. -/
def ref : Option Obj → String → Option Obj
  | some (.built _ _ _ f), a => f a
  | _, _ => none

/-- The property an object was built for. -/
def kind : Option Obj → Option String
  | some (.built p _ _ _) => some p
  | _ => none

/-- Whether user data were looked up for an object. -/
def usesUser : Option Obj → Option Bool
  | some (.built _ _ u _) => some u
  | _ => none

/-- C120 (`_fails`): the gas viscosity of the gas thermal conductivity objects is, in a package that makes its own objects, a *liquid* viscosity object; made by
`_from_IDs`, the same object has the gas viscosity. -/
theorem C120_mug_fails (c : Pack) (i : ℕ) (hi : i < c.N) :
    ∃ r st, mkCorr c false (fun _ => none) (fun _ => none) = some r ∧ buildAll c.N false fromIDsRows (fun _ => none) = some st ∧
      ref (own r.pure "ThermalConductivityGases" i) "mug" = own r.pure "ViscosityLiquids" i ∧
      kind (ref (own r.pure "ThermalConductivityGases" i) "mug") = some "ViscosityLiquids" ∧
      ref (own st "ThermalConductivityGases" i) "mug" = own st "ViscosityGases" i ∧
      kind (ref (own st "ThermalConductivityGases" i) "mug") = some "ViscosityGases" := by
  obtain ⟨r, h, _, _, _, _, h6⟩ := (C120_defaults c (fun _ => none) (fun _ => none) (by simp)).2
  obtain ⟨st, e, _, k⟩ := C120_from_IDs c.N
  have a1 := h6 ⟨"ThermalConductivityGases", false, [("Vmg", "VolumeGases"), ("mug", "ViscosityLiquids"), ("Cpgm", "HeatCapacityGases")]⟩ (by simp [defaultRows]) rfl i hi
  have a2 := h6 ⟨"ViscosityLiquids", false, [("Psat", "VaporPressures"), ("Vml", "VolumeLiquids")]⟩ (by simp [defaultRows]) rfl i hi
  have b1 := k ⟨"ThermalConductivityGases", true, [("Vmg", "VolumeGases"), ("Cpgm", "HeatCapacityGases"), ("mug", "ViscosityGases")]⟩ (by simp [fromIDsRows]) i hi
  have b2 := k ⟨"ViscosityGases", true, [("Vmg", "VolumeGases")]⟩ (by simp [fromIDsRows]) i hi
  have c1 : ref (own r.pure "ThermalConductivityGases" i) "mug" = own r.pure "ViscosityLiquids" i := by
    rw [a1]; rfl
  have c2 : ref (own st "ThermalConductivityGases" i) "mug" = own st "ViscosityGases" i := by
    rw [b1]; rfl
  exact ⟨r, st, h, e, c1, by rw [c1, a2]; rfl, c2, by rw [c2, b2]; rfl⟩

/-- C120 (`_fails`): data of the user are looked up for all properties but the gas volume in `_from_IDs`; a package that makes its own objects ignores them for ten of these
properties. -/
theorem C120_user_fails (c : Pack) (i : ℕ) (hi : i < c.N) :
    ∃ r st, mkCorr c false (fun _ => none) (fun _ => none) = some r ∧ buildAll c.N false fromIDsRows (fun _ => none) = some st ∧
      (∀ p ∈ ["VolumeSolids", "EnthalpySublimations", "SublimationPressures", "PermittivityLiquids", "ViscosityLiquids", "ViscosityGases", "ThermalConductivityLiquids",
        "ThermalConductivitySolids", "ThermalConductivityGases", "SurfaceTensions"], usesUser (own r.pure p i) = some false ∧ usesUser (own st p i) = some true) ∧
      ∀ p ∈ ["VaporPressures", "VolumeLiquids", "HeatCapacityGases", "HeatCapacitySolids", "HeatCapacityLiquids", "EnthalpyVaporizations"],
        usesUser (own r.pure p i) = some true ∧ usesUser (own st p i) = some true := by
  obtain ⟨r, h, _, _, _, _, h6⟩ := (C120_defaults c (fun _ => none) (fun _ => none) (by simp)).2
  obtain ⟨st, e, _, k⟩ := C120_from_IDs c.N
  have g1 : ∀ row ∈ defaultRows, usesUser (own r.pure row.p i) = some row.user := fun row hr => by rw [h6 row hr rfl i hi]; rfl
  have g2 : ∀ row ∈ fromIDsRows, usesUser (own st row.p i) = some row.user := fun row hr => by rw [k row hr i hi]; rfl
  have f1 : ∀ p u, (p, u) ∈ defaultRows.map (fun row => (row.p, row.user)) → usesUser (own r.pure p i) = some u := fun p u hm => by
    simp only [List.mem_map, Prod.mk.injEq] at hm
    obtain ⟨row, hr, rfl, rfl⟩ := hm
    exact g1 row hr
  have f2 : ∀ p u, (p, u) ∈ fromIDsRows.map (fun row => (row.p, row.user)) → usesUser (own st p i) = some u := fun p u hm => by
    simp only [List.mem_map, Prod.mk.injEq] at hm
    obtain ⟨row, hr, rfl, rfl⟩ := hm
    exact g2 row hr
  refine ⟨r, st, h, e, fun p hp => ⟨f1 p false ?_, f2 p true ?_⟩, fun p hp => ⟨f1 p true ?_, f2 p true ?_⟩⟩ <;> revert p <;> decide +kernel

/-! ## Addition and subsets -/

theorem pure_sub (row : Row) (h : row ∈ defaultRows) : row.p ∈ pureNames := by
  have : ∀ p ∈ defaultRows.map (·.p), p ∈ pureNames := by decide +kernel
  exact this _ (List.mem_map_of_mem h)

theorem build_complete (N : ℕ) (skip : Bool) : ∀ (rs : List Row) (st : St), (∀ r ∈ rs, (st r.p).isSome) → buildAll N skip rs st = some st
  | [], _, _ => rfl
  | r :: rs, st, h => by
    simp [buildAll, buildRow, h r (by simp), build_complete N skip rs st fun x hx => h x (List.mem_cons_of_mem _ hx)]

/-- C120: adding two packages that hold all lists gives the concatenated lists and the added constants; own mixture objects of the summands are not kept, they are built
anew, or are missing when either summand skips. -/
theorem C120_add (a b : Corr) (ha : ∀ p ∈ pureNames, (a.pure p).isSome) (hb : ∀ p ∈ pureNames, (b.pure p).isSome) :
    ∃ r c, add a b = some r ∧ ConstPack.add a.consts b.consts = some c ∧ r.consts = c ∧ r.skip = (a.skip || b.skip) ∧
      (∀ p ∈ pureNames, ∀ x y, a.pure p = some x → b.pure p = some y → r.pure p = some (x ++ y)) ∧
      ∀ m ∈ mixtureNames, r.mix m = if a.skip || b.skip then none else some (.built m 0 false fun _ => none) := by
  obtain ⟨c, hc, _⟩ := add_spec a.consts b.consts
  have hs : ∀ p ∈ pureNames, (plus (a.pure p) (b.pure p)).isSome := fun p hp => by
    obtain ⟨x, hx⟩ := Option.isSome_iff_exists.1 (ha p hp)
    obtain ⟨y, hy⟩ := Option.isSome_iff_exists.1 (hb p hp)
    simp [plus, hx, hy]
  have hall : pureNames.all (fun p => (plus (a.pure p) (b.pure p)).isSome) = true := List.all_eq_true.2 hs
  have hbuild := build_complete c.N (a.skip || b.skip) defaultRows (fun p => if p ∈ pureNames then plus (a.pure p) (b.pure p) else none) fun r hr => by
    simp only [if_pos (pure_sub r hr)]
    exact hs _ (pure_sub r hr)
  refine ⟨⟨c, a.skip || b.skip, fun p => if p ∈ pureNames then plus (a.pure p) (b.pure p) else none, mixObjs (a.skip || b.skip) fun _ => none⟩, c, ?_, hc, rfl, rfl,
    fun p hp x y hx hy => ?_, fun m hm => ?_⟩
  · simp only [add, hc, hall, if_true, mkCorr, hbuild]
  · simp [if_pos hp, plus, hx, hy]
  · simp only [mixObjs, if_pos hm]

example : ∃ r, add ⟨demo, false, fun _ => some [.given 1, .given 2], fun _ => none⟩ ⟨demo, false, fun _ => some [.given 3, .given 4], fun _ => none⟩ = some r ∧
    r.pure "VaporPressures" = some [.given 1, .given 2, .given 3, .given 4] := by
  obtain ⟨r, c, h, _, _, _, h5, _⟩ := C120_add ⟨demo, false, fun _ => some [.given 1, .given 2], fun _ => none⟩ ⟨demo, false, fun _ => some [.given 3, .given 4], fun _ => none⟩
    (by simp) (by simp)
  exact ⟨r, h, h5 _ (by decide) _ _ rfl rfl⟩

/-- C120 (`_fails`): packages made with `skip_missing`, as in the first example of the documentation (heat capacities only), cannot be added: `None + None`. -/
theorem C120_add_skip_fails (a b : Corr) (p : String) (hp : p ∈ pureNames) (h : a.pure p = none) : add a b = none := by
  unfold add
  obtain ⟨c, hc, _⟩ := add_spec a.consts b.consts
  have : pureNames.all (fun p => (plus (a.pure p) (b.pure p)).isSome) = false := by
    rw [List.all_eq_false]
    exact ⟨p, hp, by simp [plus, h]⟩
  rw [hc]
  simp [this]

example : ∃ a b, mkCorr demo true (fun p => if p = "HeatCapacityGases" then some [.given 1, .given 2] else none) (fun _ => none) = some a ∧
    mkCorr demo true (fun p => if p = "HeatCapacityGases" then some [.given 3, .given 4] else none) (fun _ => none) = some b ∧ add a b = none := by
  obtain ⟨a, ha, ha', _⟩ := (C120_defaults demo (fun p => if p = "HeatCapacityGases" then some [.given 1, .given 2] else none) (fun _ => none)
    (by intro p l h; split_ifs at h; cases h; rw [demo_wf.2]; rfl)).1
  obtain ⟨b, hb, _⟩ := (C120_defaults demo (fun p => if p = "HeatCapacityGases" then some [.given 3, .given 4] else none) (fun _ => none)
    (by intro p l h; split_ifs at h; cases h; rw [demo_wf.2]; rfl)).1
  exact ⟨a, b, ha, hb, C120_add_skip_fails a b "VaporPressures" (by decide) (by rw [ha']; simp)⟩

/-- C120: a subset of components keeps each component's own objects, in the order asked for, together with the subset of the constants. -/
theorem C120_subset (a : Corr) (hc : WF a.consts) (hl : ∀ p ∈ pureNames, ∃ v, a.pure p = some v ∧ v.length = a.consts.N) (l : List ℕ) (h0 : l ≠ [])
    (hi : ∀ i ∈ l, i < a.consts.N) :
    ∃ r d, subset a (.list (l.map fun (i : ℕ) => (i : ℤ))) = some r ∧ ConstPack.subset a.consts (.list (l.map fun (i : ℕ) => (i : ℤ))) none = some d ∧ r.consts = d ∧
      r.skip = a.skip ∧ ∀ p ∈ pureNames, ∀ k (hk : k < l.length), own r.pure p k = own a.pure p l[k] := by
  obtain ⟨d, hd, _⟩ := C119_subset a.consts hc l h0 hi
  have hat : ∀ p ∈ pureNames, ∃ v, a.pure p = some v ∧ v.length = a.consts.N ∧
      (a.pure p).bind (atIndexes (.list (l.map fun (i : ℕ) => (i : ℤ)))) = some (l.map fun i => v.getD i default) := fun p hp => by
    obtain ⟨v, hv, hvl⟩ := hl p hp
    refine ⟨v, hv, hvl, ?_⟩
    rw [hv]
    simp only [Option.bind_some, atIndexes]
    rw [mapM_some (g := fun (i : ℤ) => v.getD i.toNat default)]
    · simp [List.map_map, Function.comp_def]
    · intro x hx
      simp only [List.mem_map] at hx
      obtain ⟨i, him, rfl⟩ := hx
      rw [pyGet_nonneg]
      have : i < v.length := by rw [hvl]; exact hi i him
      simp [List.getD_eq_getElem?_getD, this]
  have hall : pureNames.all (fun p => (a.pure p).isNone || ((a.pure p).bind (atIndexes (.list (l.map fun (i : ℕ) => (i : ℤ))))).isSome) = true :=
    List.all_eq_true.2 fun p hp => by
      obtain ⟨v, _, _, h⟩ := hat p hp
      rw [h]; simp
  have hbuild := build_complete d.N a.skip defaultRows
    (fun p => if p ∈ pureNames then (a.pure p).bind (atIndexes (.list (l.map fun (i : ℕ) => (i : ℤ)))) else none) fun r hr => by
      simp only [if_pos (pure_sub r hr)]
      obtain ⟨v, _, _, h⟩ := hat _ (pure_sub r hr)
      rw [h]; rfl
  refine ⟨⟨d, a.skip, fun p => if p ∈ pureNames then (a.pure p).bind (atIndexes (.list (l.map fun (i : ℕ) => (i : ℤ)))) else none, mixObjs a.skip fun _ => none⟩,
    d, ?_, hd, rfl, rfl, ?_⟩
  · simp only [subset, hd, hall, if_true, mkCorr, hbuild]
  · intro p hp k hk
    obtain ⟨v, hv, hvl, h⟩ := hat p hp
    have hb : l[k] < v.length := by rw [hvl]; exact hi _ (List.getElem_mem hk)
    simp only [own, if_pos hp, h]
    rw [hv]
    simp [List.getElem?_map, hk, List.getD_eq_getElem?_getD, hb]

example : ∃ r, subset ⟨demo, true, fun _ => some [.given 1, .given 2], fun _ => some (.given 9)⟩ (.list ([1, 0].map fun (i : ℕ) => (i : ℤ))) = some r ∧
    own r.pure "VolumeGases" 0 = some (.given 2) := by
  obtain ⟨r, d, h, _, _, _, h5⟩ := C120_subset ⟨demo, true, fun _ => some [.given 1, .given 2], fun _ => some (.given 9)⟩ demo_wf.1
    (fun p _ => ⟨_, rfl, by simp [demo_wf.2]⟩) [1, 0] (by decide) (by simp [demo_wf.2])
  exact ⟨r, h, (h5 "VolumeGases" (by decide) 0 (by decide)).trans rfl⟩

/-- C120 (`_fails`): `subset(None)`, documented as all components, is a `TypeError` as soon as one list is there; and mixture objects handed over by the user are gone
from every subset of a package that skips missing objects. -/
theorem C120_subset_fails (a : Corr) (p : String) (hp : p ∈ pureNames) (v : List Obj) (hv : a.pure p = some v) :
    subset a .all = none ∧ ∀ s r, a.skip = true → subset a s = some r → ∀ m, r.mix m = none := by
  constructor
  · unfold subset
    cases ConstPack.subset a.consts .all none with
    | none => rfl
    | some c =>
      have : pureNames.all (fun p => (a.pure p).isNone || ((a.pure p).bind (atIndexes .all)).isSome) = false := by
        rw [List.all_eq_false]
        exact ⟨p, hp, by simp [hv, atIndexes]⟩
      simp [this]
  · intro s r hs hr m
    unfold subset at hr
    cases hc : ConstPack.subset a.consts s none with
    | none => rw [hc] at hr; simp at hr
    | some c =>
      rw [hc] at hr
      simp only at hr
      split_ifs at hr
      rw [hs] at hr
      simp only [mkCorr, build_skip, Option.some.injEq] at hr
      rw [← hr]
      rfl

end Verif.CorrPack
