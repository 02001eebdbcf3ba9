import Mathlib.Tactic
import Mathlib.Algebra.BigOperators.Field
import Mathlib.Algebra.BigOperators.Fin
import Mathlib.Data.Rat.Cast.Order

/-!
# Methods of mixture properties (`thermo/utils/mixture_property.py` and its subclasses)

* `MixtureProperty.__init__` (mixture_property.py 99-196), `add_excess_correlation` (199-212), `__repr__` (70-85), `calculate` (214-234, its choice of a branch),
  `calculate_pures_corrected`, `calculate_pures`, `calculate_pures_P` (236-259), `test_method_validity` (283-295), `partial_property` (559-567), `calculate_derivative_T` (604);
* `load_all_methods`, the branches of `calculate`, and `test_method_validity` of the eleven subclasses: `ViscosityLiquidMixture` (viscosity.py 1134-1266), `ViscosityGasMixture`
  (1335-1435), `ThermalConductivityLiquidMixture` (thermal_conductivity.py 672-786), `ThermalConductivityGasMixture` (1304-1383), `VolumeLiquidMixture` (volume.py 1081-1232),
  `VolumeGasMixture` (1597-1676), `VolumeSolidMixture` (1873-1938), `HeatCapacityLiquidMixture` (heat_capacity.py 1448-1549), `HeatCapacitySolidMixture` (1583-1643),
  `HeatCapacityGasMixture` (1677-1738), `SurfaceTensionMixture` (interface.py 536-619).

`none_and_length_check` of `chemicals` is modelled from its documentation: all lists have the length of the first one and none contains `None`.

Simplified: numbers are rationals; an object of a pure component counts as present, its values are a parameter; data tables of `chemicals` are functions on identifiers; the numeric
content of the mixing rules is in `TDep/Mixture.lean` or external; the dormant data from JSON files (131-168, `ENABLE_MIXTURE_JSON` is false) is left out.
-/

namespace Verif.MixMethods

/-! ### The code: which methods a class offers -/

/-- The subclasses. -/
inductive Cls
  | muL | muG | kL | kG | VL | VG | VS | CpL | CpS | CpG | sigma
  deriving DecidableEq, Repr

/-- Method names; `custom` is an excess correlation given by the user. -/
inductive Method
  | linear | logMolar | logMass | laliberte | brokaw | herningZipperer | wilke | magomedov | dippr9H | filippov | lindsayBromley
  | costald | costaldFit | rackett | rackettFit | eos | ideal | linearMissingIdeal | winterfeld | diguilio | custom (name : String)
  deriving DecidableEq, Repr

/-- Lists of constants given to constructors. -/
inductive Attr
  | MWs | Tcs | Pcs | Vcs | Zcs | omegas | Tbs | diameters | stockmayers | sigmasTb
  deriving DecidableEq, Repr

/-- Which columns of a row of the table of Laliberte are filled. -/
structure Row where
  /-- density -/
  density : Bool
  /-- viscosity: columns 12-17 -/
  viscosity : Bool
  /-- heat capacity: columns 22-27 -/
  heat : Bool
  deriving DecidableEq, Repr

/-- A constructor call. -/
structure In where
  /-- `CASs` -/
  cass : List String
  /-- the lists of constants; an omitted one is empty -/
  consts : Attr → List (Option ℚ)
  /-- number of objects in `pure_references[0]` -/
  objs : ℕ
  /-- number of objects in `pure_references[1]` (`ViscosityGases`, `VolumeLiquids`) -/
  objs2 : ℕ
  /-- `eos` given -/
  eos : Bool
  /-- `load_data` -/
  load : Bool
  /-- `electrochem.Laliberte_data` -/
  lal : String → Option Row
  /-- `electrochem.Magomedovk_thermal_cond.index` -/
  mag : String → Bool
  /-- `volume.rho_data_COSTALD`: whether `Z_RA` is a number -/
  cos : String → Option Bool

/-- The identifier of water. -/
def water : String := "7732-18-5"

/-- `none_and_length_check` of `chemicals`. -/
def check (ls : List (List (Option ℚ))) : Bool :=
  match ls with
  | [] => true
  | l :: _ => ls.all fun m => !m.contains none && m.length == l.length

/-- `wCASs`. -/
def solutes (i : In) : List String := i.cass.filter (· ≠ water)

/-- `len(self.CASs) > 1 and '7732-18-5' in self.CASs`. -/
def aqueous (i : In) : Bool := decide (i.cass.length > 1) && i.cass.contains water

/-- `not laliberte_incomplete`, with the columns looked at. -/
def complete (f : Row → Bool) (i : In) : Bool :=
  (solutes i).all fun c => match i.lal c with
    | some r => f r
    | none => false

/-- `none_and_length_check([self.Tcs, self.CASs])` (volume.py 1121, 1129); identifiers given are not `None`. -/
def checkCas (i : In) : Bool := !(i.consts .Tcs).contains none && i.cass.length == (i.consts .Tcs).length

/-- `self.sigmas_Tb` (interface.py 571): `zip` stops at the shorter list. -/
def sigmasTb (i : In) : List (Option ℚ) := (i.consts .sigmasTb).take (min i.objs (i.consts .Tbs).length)

/-- `load_all_methods`. -/
def offered (c : Cls) (i : In) : List Method :=
  match c with
  | .muL => [.logMolar, .logMass, .linear] ++ if i.load && aqueous i && complete Row.viscosity i then [.laliberte] else []
  | .muG => [.linear] ++ (if check [i.consts .MWs, i.consts .diameters, i.consts .stockmayers] then [.brokaw] else []) ++
      if check [i.consts .MWs] then [.wilke, .herningZipperer] else []
  | .kL => [.dippr9H, .linear] ++ (if i.cass.length = 2 then [.filippov] else []) ++
      if aqueous i && (solutes i).all i.mag then [.magomedov] else []
  | .kG => [.linear] ++ if check [i.consts .Tbs, i.consts .MWs] then [.lindsayBromley] else []
  | .VL => [.linear] ++
      (if check [i.consts .Tcs, i.consts .Vcs, i.consts .omegas] then
        [.costald] ++ if i.load && checkCas i && i.cass.all (fun c => (i.cos c).isSome) then [.costaldFit] else []
       else []) ++
      (if check [i.consts .MWs, i.consts .Tcs, i.consts .Pcs, i.consts .Zcs] then
        [.rackett] ++ if i.load && checkCas i && i.cass.all (fun c => i.cos c == some true) then [.rackettFit] else []
       else []) ++
      if i.load && aqueous i && complete Row.viscosity i then [.laliberte] else []
  | .VG => [.linear, .ideal, .linearMissingIdeal] ++ if i.eos then [.eos] else []
  | .VS => [.linear]
  | .CpL => [.linear] ++ if aqueous i && complete Row.heat i then [.laliberte] else []
  | .CpS => [.linear]
  | .CpG => [.linear]
  | .sigma => [.linear, .winterfeld] ++
      if check [i.consts .Tbs, i.consts .Tcs] && check [sigmasTb i] then [.diguilio] else []

/-- `ranked_methods`. -/
def ranked : Cls → List Method
  | .muL => [.laliberte, .logMolar, .logMass, .linear]
  | .muG => [.brokaw, .herningZipperer, .linear, .wilke]
  | .kL => [.magomedov, .dippr9H, .linear, .filippov]
  | .kG => [.lindsayBromley, .linear]
  | .VL => [.laliberte, .linear, .costaldFit, .rackettFit, .costald, .rackett]
  | .VG => [.eos, .linear, .ideal, .linearMissingIdeal]
  | .VS => [.linear]
  | .CpL => [.laliberte, .linear]
  | .CpS => [.linear]
  | .CpG => [.linear]
  | .sigma => [.winterfeld, .diguilio, .linear]

/-- The methods for which the `calculate` of a class has a branch of its own. -/
def branches : Cls → List Method
  | .muL => [.laliberte]
  | .muG => [.herningZipperer, .wilke, .brokaw]
  | .kL => [.magomedov, .dippr9H, .filippov]
  | .kG => [.lindsayBromley]
  | .VL => [.linear, .laliberte, .costald, .costaldFit, .rackett, .rackettFit]
  | .VG => [.linear, .linearMissingIdeal, .ideal, .eos]
  | .VS => []
  | .CpL => [.laliberte]
  | .CpS => []
  | .CpG => []
  | .sigma => [.diguilio, .winterfeld]

/-! ### The code: construction -/

/-- What the constructor leaves: `all_methods`, `mixture_correlations` (the newest first), `_method`. -/
structure Obj where
  /-- `all_methods` -/
  methods : List Method
  /-- keys of `mixture_correlations` -/
  correlations : List String
  /-- `_method` -/
  method : Option Method
  deriving DecidableEq, Repr

/-- `add_excess_correlation` (199-212). -/
def add (o : Obj) (name : String) : Obj := ⟨.custom name :: o.methods, name :: o.correlations, some (.custom name)⟩

/-- `MixtureProperty.__init__` (124-127, 170-196): `rk` are the keys of `redlick_kister_parameters`, `kw` the keyword `method` (`none`: absent, `some none`: `None`). -/
def init (c : Cls) (i : In) (rk : List String) (kw : Option (Option Method)) : Obj :=
  let o := rk.reverse.foldl add ⟨offered c i, [], none⟩
  let method := kw.getD o.method
  let method := match method with
    | none => (ranked c).find? fun m => decide (m ∈ o.methods)
    | some m => some m
  { o with method := method }

/-- The base `test_method_validity` (283-295) without limits: `none` is the `ValueError`. -/
def baseValid (o : Obj) : Method → Option Bool
  | .custom name => if name ∈ o.correlations then some true else none
  | _ => none

/-- `test_method_validity` of the classes. -/
def valid (c : Cls) (o : Obj) (m : Method) : Option Bool :=
  match c with
  | .muL | .VL =>
    if .laliberte ∈ o.methods ∧ m ∈ o.methods then some (decide (m = .laliberte))
    else if m ∈ o.methods then some true else baseValid o m
  | .kL =>
    if .magomedov ∈ o.methods ∧ m ∈ o.methods then some (decide (m = .magomedov))
    else if m ∈ [.linear, .dippr9H, .filippov] then some true else baseValid o m
  | .kG => if m ∈ [.linear, .lindsayBromley] then some true else baseValid o m
  | .sigma => if m ∈ [.linear, .diguilio, .winterfeld] then some true else baseValid o m
  | _ => if m ∈ o.methods then some true else baseValid o m

/-- Whether `calculate` has a branch for a method, in the class or the base class (216-228); else it raises `ValueError` (234). -/
def known (c : Cls) (o : Obj) (m : Method) : Bool :=
  decide (m ∈ branches c) || decide (m ∈ [Method.linear, .logMolar, .logMass]) ||
    match m with
    | .custom name => decide (name ∈ o.correlations)
    | _ => false

/-- The temperature limits a class takes from its pure components (viscosity.py 1197-1202 and alike): a limit of zero or `None` is dropped. -/
def limits (Tmins Tmaxs : List (Option ℚ)) : Option ℚ × Option ℚ :=
  let f := fun l : List (Option ℚ) => (l.filterMap id).filter (· ≠ 0)
  ((f Tmins).max?, (f Tmaxs).max?)

/-- The limits `VolumeSolidMixture` has after construction: its own (volume.py 1887-1888) are set before the base constructor, which resets them (114-117). -/
def solidLimits : Option ℚ × Option ℚ :=
  let own : Option ℚ × Option ℚ := (some 0, some 10000)
  let base : Option ℚ × Option ℚ := (none, none)
  (fun _ => base) own

/-! ### The code: pure values and derivatives -/

/-- An object of a pure component at a state: its value with pressure and without. -/
structure Pure where
  /-- `P_dependent` -/
  pDep : Bool
  /-- `TP_dependent_property(T, P)` -/
  tp : Option ℚ
  /-- `T_dependent_property(T)` -/
  t : Option ℚ
  deriving DecidableEq, Repr

/-- `calculate_pures_corrected` (236-259): `none` is the `IndexError` of an empty list. A call with only a temperature is the value without pressure. -/
def pures (correct fallback : Bool) (objs : List Pure) : Option (List (Option ℚ)) :=
  if correct then
    match objs with
    | [] => none
    | o :: _ =>
      if o.pDep then some (objs.map fun o => if o.tp = none ∧ fallback = true then o.t else o.tp)
      else some (objs.map (·.t))
  else some (objs.map (·.t))

/-- `derivative` of `fluids` with its default order: a central difference. -/
def central (f : ℚ → ℚ) (x dx : ℚ) : ℚ := (f (x + dx) - f (x - dx)) / (2 * dx)

/-- `prop_extensive` (561-566). -/
def extensive {n : ℕ} (prop : (Fin n → ℚ) → ℚ) (zs : Fin n → ℚ) (k : Fin n) (nk : ℚ) : ℚ :=
  let ns := Function.update zs k nk
  let tot := ∑ j, ns j
  prop (fun j => ns j / tot) * tot

/-- `partial_property` (559-567). -/
def partialProperty {n : ℕ} (prop : (Fin n → ℚ) → ℚ) (zs : Fin n → ℚ) (k : Fin n) : ℚ :=
  central (extensive prop zs k) (zs k) (1 / 10 ^ 6)

/-! ### The code: `__repr__` -/

/-- What `__repr__` (70-85) prints of the methods: the name in quotes, `None` included, and no correlation. -/
def repr (o : Obj) : Option (Option Method) :=
  match o.method with
  | some m => some (some m)
  | none => some (some (.custom "None"))

/-! ### Specification -/

/-- What a method needs besides the pure values: lists of constants. -/
def needs : Method → List Attr
  | .brokaw => [.MWs, .diameters, .stockmayers]
  | .herningZipperer | .wilke => [.MWs]
  | .lindsayBromley => [.MWs, .Tbs]
  | .costald => [.Tcs, .Vcs, .omegas]
  | .costaldFit => [.Tcs]
  | .rackett => [.MWs, .Tcs, .Pcs, .Zcs]
  | .rackettFit => [.MWs, .Tcs, .Pcs]
  | .diguilio => [.Tbs, .Tcs]
  | _ => []

/-- The data of a method are complete for `n` components. -/
def Ready (c : Cls) (i : In) (n : ℕ) (m : Method) : Prop :=
  (∀ a ∈ needs m, (i.consts a).length = n ∧ none ∉ i.consts a) ∧
  (m = .diguilio → (sigmasTb i).length = n ∧ none ∉ sigmasTb i) ∧
  (m = .lindsayBromley ∨ m = .winterfeld → i.objs2 = n) ∧
  (m = .filippov → n = 2) ∧
  (m = .costaldFit → ∀ s ∈ i.cass, (i.cos s).isSome) ∧
  (m = .rackettFit → ∀ s ∈ i.cass, i.cos s = some true) ∧
  (m = .eos → i.eos = true) ∧
  (m = .laliberte ∨ m = .magomedov → (solutes i).length + 1 = n ∧ water ∈ i.cass) ∧
  (m = .magomedov → ∀ s ∈ solutes i, i.mag s = true) ∧
  (m = .laliberte → ∀ s ∈ solutes i, ∃ r, i.lal s = some r ∧
    (match c with
      | .muL => r.viscosity
      | .CpL => r.heat
      | _ => r.density) = true)

/-- All lists and objects given for `n` components; a list may contain `None`. -/
structure Given (i : In) (n : ℕ) : Prop where
  cass : i.cass.length = n
  nodup : i.cass.Nodup
  consts : ∀ a, (i.consts a).length = n
  objs : i.objs = n
  objs2 : i.objs2 = n

/-! ### Offered methods -/

theorem offered_linear (c : Cls) (i : In) : Method.linear ∈ offered c i := by
  cases c <;> simp [offered]

theorem ranked_linear (c : Cls) : Method.linear ∈ ranked c := by
  cases c <;> simp [ranked]

/-- **C130.** Every method offered is ranked, so that it can become the default, and has a branch in `calculate`. -/
theorem C130_ranked (c : Cls) (i : In) (m : Method) (h : m ∈ offered c i) (o : Obj) : m ∈ ranked c ∧ known c o m = true := by
  cases c <;> simp only [offered, List.mem_append, List.mem_cons, List.not_mem_nil, or_false, List.mem_ite_nil_right] at h
  all_goals
    rcases m with _ | _ | _ | _ | _ | _ | _ | _ | _ | _ | _ | _ | _ | _ | _ | _ | _ | _ | _ | _ | _ <;>
      first
      | (exact ⟨by decide, by simp [known, branches]⟩)
      | (exfalso; revert h; simp)

example : Method.costald ∈ ranked .VL ∧ known .VL ⟨[], [], none⟩ .costald = true :=
  C130_ranked .VL ⟨["a", "b"], fun _ => [some 1, some 2], 2, 0, false, true, fun _ => none, fun _ => false, fun _ => none⟩ .costald (by decide +kernel) _

theorem check_mem {ls : List (List (Option ℚ))} (h : check ls = true) {l m : List (Option ℚ)} {rest} (e : ls = l :: rest) (hm : m ∈ ls) :
    none ∉ m ∧ m.length = l.length := by
  subst e
  simp only [check, List.all_eq_true, Bool.and_eq_true, Bool.not_eq_true', beq_iff_eq] at h
  have := h m hm
  refine ⟨?_, this.2⟩
  intro hc
  have h1 := this.1
  rw [List.contains_iff_mem.mpr hc] at h1
  exact absurd h1 (by simp)

theorem solutes_length (i : In) (hn : i.cass.Nodup) (hw : water ∈ i.cass) : (solutes i).length + 1 = i.cass.length := by
  unfold solutes
  have h := List.length_eq_length_filter_add (l := i.cass) (fun s => decide (s ≠ water))
  have h2 : (i.cass.filter fun s => !decide (s ≠ water)).length = 1 := by
    have e : (i.cass.filter fun s => !decide (s ≠ water)) = i.cass.filter (· == water) := by
      congr 1; funext s; by_cases hs : s = water <;> simp [hs]
    rw [e, List.filter_beq, List.length_replicate]
    exact List.count_eq_one_of_mem hn hw
  rw [h, h2]

/-- **C130** (partial). With all lists and objects given, every method offered finds its data complete. Missing: omitted lists pass the check (`C130_empty_fails`), and the volume of
aqueous solutions is offered by the columns of viscosity (`C130_volume_columns_fails`), hence the hypothesis `hd`. -/
theorem C130_ready_partial (c : Cls) (i : In) (n : ℕ) (hg : Given i n)
    (hd : c = .VL → ∀ s r, i.lal s = some r → r.viscosity = true → r.density = true)
    (m : Method) (h : m ∈ offered c i) : Ready c i n m := by
  have hc : ∀ a b (rest : List (List (Option ℚ))), check (i.consts a :: rest) = true → i.consts b ∈ i.consts a :: rest →
      (i.consts b).length = n ∧ none ∉ i.consts b := fun a b rest h hm =>
    ⟨hg.consts b, (check_mem h rfl hm).1⟩
  have hw : aqueous i = true → (solutes i).length + 1 = n ∧ water ∈ i.cass := by
    intro h
    simp only [aqueous, Bool.and_eq_true, List.contains_iff_mem] at h
    exact ⟨(solutes_length i hg.nodup h.2).trans hg.cass, h.2⟩
  have hl : ∀ f : Row → Bool, complete f i = true → ∀ s ∈ solutes i, ∃ r, i.lal s = some r ∧ f r = true := by
    intro f h s hs
    have := List.all_eq_true.mp h s hs
    revert this
    cases i.lal s with
    | none => simp
    | some r => exact fun e => ⟨r, rfl, e⟩
  unfold Ready
  cases c <;>
    simp only [offered, List.mem_append, List.mem_cons, List.not_mem_nil, or_false, List.mem_ite_nil_right, Bool.and_eq_true] at h
  case muL =>
    rcases h with h | ⟨h, rfl⟩
    · rcases h with rfl | rfl | rfl <;> simp [needs]
    · simpa [needs] using ⟨hw h.1.2, hl _ h.2⟩
  case muG =>
    rcases h with (rfl | ⟨h, rfl⟩) | ⟨h, h' | h'⟩
    · simp [needs]
    · have a := hc .MWs .MWs _ h (by simp)
      have b := hc .MWs .diameters _ h (by simp)
      have d := hc .MWs .stockmayers _ h (by simp)
      simpa [needs] using ⟨a, b, d⟩
    · subst h'
      simpa [needs] using hc .MWs .MWs _ h (by simp)
    · subst h'
      simpa [needs] using hc .MWs .MWs _ h (by simp)
  case kL =>
    rcases h with (h | ⟨h, rfl⟩) | ⟨⟨h, h2⟩, rfl⟩
    · rcases h with rfl | rfl <;> simp [needs]
    · simpa [needs] using hg.cass.symm.trans h
    · simpa [needs] using ⟨hw h, List.all_eq_true.mp h2⟩
  case kG =>
    rcases h with rfl | ⟨h, rfl⟩
    · simp [needs]
    · have a := hc .Tbs .Tbs _ h (by simp)
      have b := hc .Tbs .MWs _ h (by simp)
      simpa [needs] using ⟨⟨b, a⟩, hg.objs2⟩
  case VL =>
    rcases h with ((rfl | ⟨h, h1⟩) | ⟨h, h1⟩) | ⟨h, rfl⟩
    · simp [needs]
    · have a := hc .Tcs .Tcs _ h (by simp)
      have b := hc .Tcs .Vcs _ h (by simp)
      have d := hc .Tcs .omegas _ h (by simp)
      rcases h1 with rfl | ⟨h1, rfl⟩
      · simpa [needs] using ⟨a, b, d⟩
      · simpa [needs] using ⟨a, List.all_eq_true.mp h1.2⟩
    · have a := hc .MWs .MWs _ h (by simp)
      have b := hc .MWs .Tcs _ h (by simp)
      have d := hc .MWs .Pcs _ h (by simp)
      have e := hc .MWs .Zcs _ h (by simp)
      rcases h1 with rfl | ⟨h1, rfl⟩
      · simpa [needs] using ⟨a, b, d, e⟩
      · refine ⟨by simpa [needs] using ⟨a, b, d⟩, by simp, by simp, by simp, by simp, ?_, by simp, by simp, by simp, by simp⟩
        intro _ s hs
        simpa using List.all_eq_true.mp h1.2 s hs
    · refine ⟨by simp [needs], by simp, by simp, by simp, by simp, by simp, by simp, fun _ => hw h.1.2, by simp, ?_⟩
      intro _ s hs
      obtain ⟨r, e, hr⟩ := hl _ h.2 s hs
      exact ⟨r, e, hd rfl s r e hr⟩
  case VG =>
    rcases h with h | ⟨h, rfl⟩
    · rcases h with rfl | rfl | rfl <;> simp [needs]
    · simpa [needs] using h
  case VS => subst h; simp [needs]
  case CpL =>
    rcases h with rfl | ⟨h, rfl⟩
    · simp [needs]
    · simpa [needs] using ⟨hw h.1, hl _ h.2⟩
  case CpS => subst h; simp [needs]
  case CpG => subst h; simp [needs]
  case sigma =>
    rcases h with h | ⟨h, rfl⟩
    · rcases h with rfl | rfl
      · simp [needs]
      · simpa [needs] using hg.objs2
    · have a := hc .Tbs .Tbs _ h.1 (by simp)
      have b := hc .Tbs .Tcs _ h.1 (by simp)
      have d := (check_mem h.2 rfl (List.mem_singleton.mpr rfl)).1
      refine ⟨by simpa [needs] using ⟨a, b⟩, fun _ => ⟨?_, d⟩, by simp, by simp, by simp, by simp, by simp, by simp, by simp, by simp⟩
      simp [sigmasTb, hg.objs, hg.consts]

/-- Two components with everything given, one of them water, the other a salt with data. -/
def saltWater : In :=
  ⟨[water, "7647-14-5"], fun _ => [some 1, some 2], 2, 2, false, true, fun s => if s = "7647-14-5" then some ⟨true, true, true⟩ else none, fun s => s == "7647-14-5", fun _ => none⟩

example : Ready .VL saltWater 2 .laliberte ∧ Ready .kL saltWater 2 .magomedov ∧ Ready .muG saltWater 2 .brokaw := by
  have hg : Given saltWater 2 := ⟨rfl, by decide, fun _ => rfl, rfl, rfl⟩
  refine ⟨C130_ready_partial .VL _ 2 hg ?_ _ (by decide +kernel), C130_ready_partial .kL _ 2 hg (by simp) _ (by decide +kernel),
    C130_ready_partial .muG _ 2 hg (by simp) _ (by decide +kernel)⟩
  intro _ s r h _
  simp only [saltWater] at h
  split_ifs at h
  simp only [Option.some.injEq] at h
  rw [← h]

/-- **C130.** The negation of "an offered method has its data": with no constants given the length check compares empty lists and passes, so a gas mixture of two components has as its
default conductivity a rule without its constants, and likewise for viscosity, volume and surface tension; the linear rule which would work is not chosen. -/
theorem C130_empty_fails : ∃ i : In, i.objs = 2 ∧ i.objs2 = 2 ∧ i.cass.length = 2 ∧
    (∀ c m, (c, m) ∈ [(Cls.kG, Method.lindsayBromley), (.muG, .brokaw), (.VL, .costald), (.VL, .rackett), (.sigma, .diguilio)] → m ∈ offered c i ∧ ¬ Ready c i 2 m) ∧
    (init .kG i [] none).method = some .lindsayBromley ∧ (init .muG i [] none).method = some .brokaw := by
  refine ⟨⟨["a", "b"], fun _ => [], 2, 2, false, true, fun _ => none, fun _ => false, fun _ => none⟩, rfl, rfl, rfl, ?_, by decide +kernel, by decide +kernel⟩
  intro c m h
  fin_cases h <;> exact ⟨by decide +kernel, fun h => absurd (h.1 _ List.mem_cons_self).1 (by simp)⟩

/-- **C130.** The negation of "the default surface tension has its data": it needs liquid volumes, which are not looked at. -/
theorem C130_volumes_fails : ∃ i : In, i.objs = 2 ∧ i.cass.length = 2 ∧ (init .sigma i [] none).method = some .winterfeld ∧ ¬ Ready .sigma i 2 .winterfeld := by
  refine ⟨⟨["a", "b"], fun _ => [some 1, some 2], 2, 0, false, true, fun _ => none, fun _ => false, fun _ => none⟩, rfl, rfl, by decide +kernel, ?_⟩
  intro h
  have := h.2.2.1 (Or.inr rfl)
  simp at this

/-- **C130.** The negation of "the volume of an aqueous solution is offered if densities are known": the columns of viscosity decide, both ways. -/
theorem C130_volume_columns_fails :
    (∃ i, Given i 2 ∧ (init .VL i [] none).method = some .laliberte ∧ ¬ Ready .VL i 2 .laliberte) ∧
    ∃ i, Given i 2 ∧ i.load = true ∧ Ready .VL i 2 .laliberte ∧ Method.laliberte ∉ offered .VL i := by
  refine ⟨⟨{ saltWater with lal := fun _ => some ⟨false, true, true⟩ }, ⟨rfl, by decide, fun _ => rfl, rfl, rfl⟩, by decide +kernel, ?_⟩,
    { saltWater with lal := fun _ => some ⟨true, false, true⟩ }, ⟨rfl, by decide, fun _ => rfl, rfl, rfl⟩, rfl, ?_, by decide +kernel⟩
  · intro h
    obtain ⟨r, e, hr⟩ := h.2.2.2.2.2.2.2.2.2 rfl "7647-14-5" (by decide)
    simp only [Option.some.injEq] at e
    rw [← e] at hr
    simp at hr
  · refine ⟨by simp [needs], by simp, by simp, by simp, by simp, by simp, by simp, fun _ => ⟨by decide, by decide⟩, by simp, ?_⟩
    exact fun _ s _ => ⟨_, rfl, rfl⟩

/-- **C130.** The negation of "without loading data no table is used": conductivity and heat capacity of solutions are offered all the same, viscosity and volume are not. -/
theorem C130_load_fails : ∃ i : In, i.load = false ∧ Method.magomedov ∈ offered .kL i ∧ Method.laliberte ∈ offered .CpL i ∧
    Method.laliberte ∉ offered .muL i ∧ Method.laliberte ∉ offered .VL i :=
  ⟨{ saltWater with load := false }, rfl, by decide +kernel, by decide +kernel, by decide +kernel, by decide +kernel⟩

/-- **C130.** The negation of "every list of identifiers works": with water listed twice the mass fractions are one longer than the solutes. -/
theorem C130_water_twice_fails : ∃ i : In, i.cass.length = 3 ∧ (init .muL i [] none).method = some .laliberte ∧ (solutes i).length + 1 ≠ i.cass.length :=
  ⟨{ saltWater with cass := [water, water, "7647-14-5"] }, rfl, by decide +kernel, by decide⟩

/-! ### Construction -/

theorem foldl_add (rk : List String) : ∀ o : Obj,
    (rk.foldl add o).methods = (rk.reverse.map Method.custom) ++ o.methods ∧ (rk.foldl add o).correlations = rk.reverse ++ o.correlations ∧
    (rk.foldl add o).method = match rk.getLast? with
      | some n => some (.custom n)
      | none => o.method := by
  induction rk with
  | nil => intro o; simp
  | cons r rk ih =>
    intro o
    obtain ⟨h1, h2, h3⟩ := ih (add o r)
    refine ⟨?_, ?_, ?_⟩
    · rw [List.foldl_cons, h1]; simp [add]
    · rw [List.foldl_cons, h2]; simp [add]
    · rw [List.foldl_cons, h3]
      cases rk with
      | nil => simp [add]
      | cons s rk =>
        rw [List.getLast?_cons_cons]
        cases hl : (s :: rk).getLast? with
        | none => simp at hl
        | some n => rfl

/-- **C130.** What is available: the methods of the class and every excess correlation; the correlations are known to `calculate`. -/
theorem C130_available (c : Cls) (i : In) (rk : List String) (kw : Option (Option Method)) :
    let o := init c i rk kw
    (∀ m, m ∈ o.methods ↔ m ∈ offered c i ∨ ∃ n ∈ rk, m = .custom n) ∧ (∀ m ∈ o.methods, known c o m = true) := by
  intro o
  have h := foldl_add rk.reverse ⟨offered c i, [], none⟩
  have hm : o.methods = rk.map Method.custom ++ offered c i := by
    have := h.1; rw [List.reverse_reverse] at this; exact this
  have hc : o.correlations = rk := by
    have := h.2.1; rw [List.reverse_reverse, List.append_nil] at this; exact this
  have key : ∀ m, m ∈ o.methods ↔ m ∈ offered c i ∨ ∃ n ∈ rk, m = .custom n := by
    intro m
    rw [hm, List.mem_append, List.mem_map, or_comm]
    simp only [eq_comm]
  refine ⟨key, fun m hm => ?_⟩
  rcases (key m).mp hm with h | ⟨n, hn, rfl⟩
  · exact (C130_ranked c i m h o).2
  · simp [known, hc, hn]

example : Method.custom "fit" ∈ (init .muL saltWater ["fit"] none).methods := by
  rw [(C130_available .muL saltWater ["fit"] none).1]
  exact Or.inr ⟨"fit", by simp, rfl⟩

/-- **C130.** The default method: the first excess correlation listed; without one the first ranked method that is offered, which always exists. -/
theorem C130_default (c : Cls) (i : In) :
    (∀ n rk, (init c i (n :: rk) none).method = some (.custom n)) ∧
    ∃ m, (init c i [] none).method = some m ∧ m ∈ offered c i ∧
      ∃ before after, ranked c = before ++ m :: after ∧ ∀ m' ∈ before, m' ∉ offered c i := by
  constructor
  · intro n rk
    have h := (foldl_add (n :: rk).reverse ⟨offered c i, [], none⟩).2.2
    simp only [List.getLast?_reverse, List.head?_cons] at h
    unfold init
    simp only [Option.getD_none]
    rw [h]
  · have e : (init c i [] none).method = (ranked c).find? fun m => decide (m ∈ offered c i) := by
      rfl
    rw [e]
    cases hf : (ranked c).find? (fun m => decide (m ∈ offered c i)) with
    | none =>
      rw [List.find?_eq_none] at hf
      exact absurd (offered_linear c i) (by simpa using hf _ (ranked_linear c))
    | some m =>
      refine ⟨m, rfl, by simpa using List.find?_some hf, ?_⟩
      rw [List.find?_eq_some_iff_append] at hf
      obtain ⟨_, before, after, e, h⟩ := hf
      exact ⟨before, after, e, fun m' hm' => by simpa using h m' hm'⟩

example : (init .muG ⟨["a"], fun a => if a = .MWs then [some 1] else [none], 1, 1, false, true, fun _ => none, fun _ => false, fun _ => none⟩ [] none).method
    = some .herningZipperer := by decide +kernel

/-- **C130.** A method given by keyword is taken as it is. -/
theorem C130_keyword (c : Cls) (i : In) (rk : List String) (m : Method) : (init c i rk (some (some m))).method = some m := by
  simp [init]

/-- **C130.** The negation of "the method of an object is one it has": a keyword is not checked; such an object raises in `calculate`. -/
theorem C130_keyword_fails : ∃ i, ∃ m, (init .muL i [] (some (some m))).method = some m ∧ m ∉ (init .muL i [] (some (some m))).methods ∧
    known .muL (init .muL i [] (some (some m))) m = false :=
  ⟨saltWater, .custom "TYPO", by decide +kernel, by decide +kernel, by decide +kernel⟩

/-- **C130.** The negation of "`method=None` is the default": an excess correlation is the method without the keyword, but not with `None`. -/
theorem C130_none_fails : ∃ i, (init .CpG i ["fit"] none).method = some (.custom "fit") ∧ (init .CpG i ["fit"] (some none)).method = some .linear :=
  ⟨saltWater, by decide +kernel, by decide +kernel⟩

/-- **C130** (partial). An object without excess correlations is built again from the method `__repr__` shows. Missing: correlations are not shown (`C130_repr_fails`). -/
theorem C130_repr_partial (c : Cls) (i : In) : init c i [] (repr (init c i [] none)) = init c i [] none := by
  obtain ⟨m, h, -⟩ := (C130_default c i).2
  have e : repr (init c i [] none) = some (some m) := by unfold repr; rw [h]
  rw [e]
  unfold init at h ⊢
  simp only [Option.getD_some]
  rw [← h]

/-- **C130.** The negation of "`__repr__` builds the object again": the correlation selected is gone, and the object built raises. -/
theorem C130_repr_fails : ∃ i rk, let o := init .CpG i rk none
    init .CpG i [] (repr o) ≠ o ∧ ∃ m, (init .CpG i [] (repr o)).method = some m ∧ known .CpG (init .CpG i [] (repr o)) m = false :=
  ⟨saltWater, ["fit"], by decide +kernel, .custom "fit", by decide +kernel, by decide +kernel⟩

/-! ### Validity -/

/-- **C130** (partial). Every available method is valid in an object without a method for solutions. Missing: with one, all others are rejected (`C130_valid_fails`). -/
theorem C130_valid_partial (c : Cls) (i : In) (rk : List String) (kw : Option (Option Method)) (m : Method)
    (hm : m ∈ (init c i rk kw).methods) (hl : Method.laliberte ∉ offered c i ∧ Method.magomedov ∉ offered c i) :
    valid c (init c i rk kw) m = some true := by
  have h := (C130_available c i rk kw).1
  have hk := foldl_add rk.reverse ⟨offered c i, [], none⟩
  have hc : (init c i rk kw).correlations = rk := by
    have := hk.2.1; rw [List.reverse_reverse, List.append_nil] at this; exact this
  have h1 : Method.laliberte ∉ (init c i rk kw).methods := by
    rw [h]; simpa using hl.1
  have h2 : Method.magomedov ∉ (init c i rk kw).methods := by
    rw [h]; simpa using hl.2
  have hb : ∀ l : List Method, (m ∈ offered c i → m ∈ l) → (if m ∈ l then some true else baseValid (init c i rk kw) m) = some true := by
    intro l hl
    split_ifs with h'
    · rfl
    · rcases (h m).mp hm with h3 | ⟨n, hn, rfl⟩
      · exact absurd (hl h3) h'
      · simp [baseValid, hc, hn]
  have hr := C130_ranked c i m
  cases c <;> simp only [valid, h1, h2, hm, false_and, if_false, if_true] <;> apply hb
  · intro h3
    have := (hr h3 ⟨[], [], none⟩).1
    simp only [ranked, List.mem_cons, List.not_mem_nil, or_false] at this ⊢
    rcases this with rfl | h4 | h4 | h4
    · exact absurd h3 hl.2
    all_goals simp [h4]
  · intro h3
    have := (hr h3 ⟨[], [], none⟩).1
    simp only [ranked, List.mem_cons, List.not_mem_nil, or_false] at this ⊢
    tauto
  · intro h3
    have := (hr h3 ⟨[], [], none⟩).1
    simp only [ranked, List.mem_cons, List.not_mem_nil, or_false] at this ⊢
    tauto

example : valid .kL (init .kL ⟨["a", "b"], fun _ => [], 2, 2, false, true, fun _ => none, fun _ => false, fun _ => none⟩ ["fit"] none) .filippov = some true :=
  C130_valid_partial .kL _ _ _ _ (by decide +kernel) (by decide +kernel)

/-- **C130.** The negation of "an available method is valid": where a method for aqueous solutions is offered, even the excess correlation the user has given, and which is the method of
the object, is invalid, and the linear rule too. -/
theorem C130_valid_fails : ∀ c ∈ [Cls.muL, .kL, .VL], ∃ i, let o := init c i ["fit"] none
    o.method = some (.custom "fit") ∧ valid c o (.custom "fit") = some false ∧ valid c o .linear = some false := by
  intro c hc
  fin_cases hc <;> exact ⟨saltWater, by decide +kernel, by decide +kernel, by decide +kernel⟩

/-- **C130.** The negation of "what is valid is available": the conductivity of liquids takes a rule for two components as valid for any number. -/
theorem C130_filippov_fails : ∃ i, i.cass.length = 3 ∧ let o := init .kL i [] none
    Method.filippov ∉ o.methods ∧ valid .kL o .filippov = some true :=
  ⟨{ saltWater with cass := ["a", "b", "c"] }, rfl, by decide +kernel, by decide +kernel⟩

/-! ### Limits -/

/-- **C130.** The lower limit of a mixture is within the range of all components: no component's own limit, if not zero, is above it, and it is one of them. -/
theorem C130_Tmin (Tmins Tmaxs : List (Option ℚ)) (t : ℚ) (h : (limits Tmins Tmaxs).1 = some t) :
    some t ∈ Tmins ∧ ∀ u, some u ∈ Tmins → u ≠ 0 → u ≤ t := by
  unfold limits at h
  simp only at h
  rw [List.max?_eq_some_iff] at h
  obtain ⟨h1, h2⟩ := h
  simp only [List.mem_filter, List.mem_filterMap, id] at h1 h2
  obtain ⟨⟨a, ha, e⟩, -⟩ := h1
  refine ⟨by rw [← e]; exact ha, fun u hu h0 => h2 u ⟨⟨some u, hu, rfl⟩, by simpa using h0⟩⟩

example : (limits [some 200, some 250, none] []).1 = some 250 := by decide +kernel

/-- **C130.** The negation of "the upper limit is within the range of all components": the largest is taken. A limit of zero is no limit. -/
theorem C130_Tmax_fails :
    (∃ Tmins Tmaxs t, (limits Tmins Tmaxs).2 = some t ∧ ∃ u, some u ∈ Tmaxs ∧ u < t) ∧ (limits [some 0] []).1 = none :=
  ⟨⟨[some 200, some 200], [some 400, some 600], 600, by decide +kernel, 400, by decide +kernel, by norm_num⟩, by decide +kernel⟩

/-- **C130.** The negation of "solid volumes hold between 0 and 10000 K": the limits set are lost. -/
theorem C130_solid_limits_fails : solidLimits = (none, none) ∧ solidLimits ≠ (some 0, some 10000) := by
  constructor
  · rfl
  · decide +kernel

/-! ### Pure values -/

/-- **C130.** Values of the pure components: without correction those without pressure; with correction and falling back, each component that has a value with pressure gives that one,
others the one without. -/
theorem C130_pures (objs : List Pure) (fallback : Bool) :
    pures false fallback objs = some (objs.map (·.t)) ∧
    (objs ≠ [] → (∀ o ∈ objs, o.pDep = true) →
      pures true fallback objs = some (objs.map fun o => match o.tp, fallback with
        | some v, _ => some v
        | none, true => o.t
        | none, false => none)) ∧
    (objs ≠ [] → (∀ o ∈ objs, o.pDep = false) → pures true fallback objs = some (objs.map (·.t))) := by
  refine ⟨by simp [pures], ?_, ?_⟩
  · intro hne h
    cases objs with
    | nil => exact absurd rfl hne
    | cons o os =>
      unfold pures
      simp only [if_true, h o (by simp)]
      congr 1
      apply List.map_congr_left
      intro o' _
      cases o'.tp <;> cases fallback <;> simp
  · intro hne h
    cases objs with
    | nil => exact absurd rfl hne
    | cons o os => simp [pures, h o (by simp)]

example : pures true true [⟨true, some 2, some 1⟩, ⟨true, none, some 3⟩] = some [some 2, some 3] := by
  rw [(C130_pures _ _).2.1 (by simp) (by simp)]; rfl

/-- **C130.** The negation of "each component is corrected for pressure if it can be": the first one decides for all. An empty list raises. -/
theorem C130_pures_fails :
    (∃ o o' : Pure, o'.pDep = true ∧ o'.tp = some 2 ∧ pures true true [o, o'] = some [o.t, o'.t] ∧ o'.t ≠ o'.tp) ∧ pures true true [] = none :=
  ⟨⟨⟨false, none, some 1⟩, ⟨true, some 2, some 3⟩, rfl, rfl, by decide +kernel, by decide +kernel⟩, rfl⟩

/-! ### Partial properties -/

theorem extensive_linear {n : ℕ} (p zs : Fin n → ℚ) (k : Fin n) (nk : ℚ) (h : ∑ j, Function.update zs k nk j ≠ 0) :
    extensive (fun z => ∑ j, z j * p j) zs k nk = ∑ j, Function.update zs k nk j * p j := by
  unfold extensive
  simp only
  rw [Finset.sum_mul]
  refine Finset.sum_congr rfl fun j _ => ?_
  field_simp

theorem sum_update {n : ℕ} (zs p : Fin n → ℚ) (k : Fin n) (x : ℚ) :
    ∑ j, Function.update zs k x j * p j = ∑ j, zs j * p j + (x - zs k) * p k := by
  rw [← Finset.add_sum_erase _ _ (Finset.mem_univ k), ← Finset.add_sum_erase (a := k) _ (fun j => zs j * p j) (Finset.mem_univ k)]
  rw [Function.update_self, Finset.sum_congr rfl (g := fun j => zs j * p j)]
  · ring
  · intro j hj
    rw [Function.update_of_ne (Finset.ne_of_mem_erase hj)]

/-- **C130.** For the linear rule the partial property of a component is exactly its pure value, whatever the composition, so that the partial properties add up to the property. -/
theorem C130_partial_linear {n : ℕ} (p zs : Fin n → ℚ) (k : Fin n) (hz : ∑ j, zs j = 1) :
    partialProperty (fun z => ∑ j, z j * p j) zs k = p k := by
  have hs : ∀ x, ∑ j, Function.update zs k x j = 1 + (x - zs k) := by
    intro x
    have := sum_update zs (fun _ => 1) k x
    simp only [mul_one, hz] at this
    exact this
  unfold partialProperty central
  rw [extensive_linear _ _ _ _ (by rw [hs]; norm_num), extensive_linear _ _ _ _ (by rw [hs]; norm_num), sum_update, sum_update]
  field_simp
  ring

/-- **C130.** The sum of the partial properties weighted by the composition. -/
theorem C130_partial_sum {n : ℕ} (p zs : Fin n → ℚ) (hz : ∑ j, zs j = 1) :
    ∑ k, zs k * partialProperty (fun z => ∑ j, z j * p j) zs k = ∑ k, zs k * p k :=
  Finset.sum_congr rfl fun k _ => by rw [C130_partial_linear p zs k hz]

example : partialProperty (fun z => ∑ j, z j * ![(3 : ℚ), 5] j) ![1, 0] 1 = 5 :=
  C130_partial_linear ![3, 5] ![1, 0] 1 (by simp)

example : ∑ k, ![(1 / 2 : ℚ), 1 / 2] k * partialProperty (fun z => ∑ j, z j * ![(3 : ℚ), 5] j) ![1 / 2, 1 / 2] k = 4 := by
  rw [C130_partial_sum ![3, 5] ![1 / 2, 1 / 2] (by simp; norm_num)]
  simp; norm_num

/-- **C130.** A numerical derivative of the linear rule, as `calculate_derivative_T` (604) takes it, is the linear rule of the numerical derivatives of the components. -/
theorem C130_derivative_linear {n : ℕ} (p : Fin n → ℚ → ℚ) (zs : Fin n → ℚ) (T dx : ℚ) :
    central (fun t => ∑ j, zs j * p j t) T dx = ∑ j, zs j * central (p j) T dx := by
  unfold central
  rw [← Finset.sum_sub_distrib, Finset.sum_div]
  exact Finset.sum_congr rfl fun j _ => by ring

example : central (fun t => ∑ j, ![(1 / 2 : ℚ), 1 / 2] j * (fun (j : Fin 2) t => (j + 1 : ℚ) * t) j t) 300 (1 / 10 ^ 6)
    = ∑ j, ![(1 / 2 : ℚ), 1 / 2] j * central ((fun (j : Fin 2) t => (j + 1 : ℚ) * t) j) 300 (1 / 10 ^ 6) :=
  C130_derivative_linear _ _ _ _

end Verif.MixMethods
