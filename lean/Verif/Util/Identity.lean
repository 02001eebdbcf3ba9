import Mathlib.Tactic
import Verif.Phases.ExcessState

/-!
# Equality and hashes of objects

Every class of the library compares objects by `self.__hash__() == hash(other)`: `eos.py` 906-967, `activity.py`
333-378, `phases/phase.py` 244-360, `phases/virial_phase.py` 297-357, `flash/flash_base.py` 112-134, `chemical_package.py`
649-661 and 1570-1578, `equilibrium.py` 231-245, `utils/mixture_property.py` 88-94, `utils/t_dependent_property.py`
1558-1577. Flashes decide by these hashes which liquids have the same model.

Simplified: hashes are perfect, that is, a hash is represented by the data that was hashed (`Code`); values of attributes
are elements of an arbitrary type, two of them equal if the values have the same hash.
-/

namespace Verif.Identity

/-- An object: the name of its class, and what `getattr` returns; `none` for an `AttributeError`. -/
structure Obj (V : Type) where
  cls : String
  attr : String → Option V

/-- Data that is hashed. -/
inductive Code (V : Type)
  /-- `h = hash((h, s, value))` for each name `s`, starting with the name of the class -/
  | named (cls : String) (l : List (String × V))
  /-- a list of values -/
  | vals (l : List V)
  /-- the name of the class and a list of values -/
  | tagged (cls : String) (l : List V)
  /-- the hash of a model, and its state -/
  | state (model : Code V) (l : List (Option V))
  deriving DecidableEq

variable {V : Type}

/-! ### Hashes of the families of classes -/

/-- `GCEOS.model_hash` (`eos.py` 940-951), `VirialCSP.model_hash` (`phases/virial_phase.py` 310-322), without the memo:
attributes that are missing are skipped, with their names. -/
def eosModel (keys : List String) (o : Obj V) : Code V :=
  .named o.cls (keys.filterMap fun k => (o.attr k).map (Prod.mk k))

/-- All values, or `AttributeError`. -/
def getAll (a : String → Option V) : List String → Option (List V)
  | [] => some []
  | k :: ks => (a k).bind fun v => (getAll a ks).map (v :: ·)

/-- `GibbsExcess.model_hash` (`activity.py` 354-361): the name of the class, the number of components, the values. -/
def gibbsModel (keys : List String) (o : Obj V) : Option (Code V) := (getAll o.attr ("N" :: keys)).map (.tagged o.cls)

/-- `Phase.model_hash` (`phases/phase.py` 352-360), without the memo. -/
def phaseModel (ignorePhase : Bool) (keys : List String) (o : Obj V) : Option (Code V) :=
  (getAll o.attr keys).map fun l => if ignorePhase then .vals l else .tagged o.cls l

/-- `GCEOS.state_hash` (`eos.py` 920-924): `V` is the attribute, `None` unless it was specified. -/
def eosState (keys : List String) (o : Obj V) : Code V :=
  .state (eosModel keys o) [o.attr "T", o.attr "P", o.attr "V", o.attr "zs"]

/-- `Flash.__hash__` (`flash/flash_base.py` 122-134): values whose hash raises anything are skipped; names are not
hashed. -/
def flashHash (refs : List String) (o : Obj V) : Code V := .tagged o.cls (refs.filterMap o.attr)

/-- `hash_references` (120). -/
def flashRefs : List String := ["correlations", "constants", "settings", "gas", "liquids", "liquid", "solids"]

/-- `__hash__` of packages (`chemical_package.py` 654-657, 1573-1578). -/
def packageHash (keys : List String) (o : Obj V) : Option (Code V) := (getAll o.attr keys).map .vals

/-- `__eq__`; `none` is the `TypeError` for an argument without hash. -/
def eqTest {H : Type} [DecidableEq H] (self : H) (other : Option H) : Option Bool := other.map fun h => decide (self = h)

/-! ### Equality -/

/-- **C122.** Equality of objects of the library is an equivalence relation. -/
theorem C122_equivalence {H : Type} [DecidableEq H] :
    (∀ a : H, eqTest a (some a) = some true)
      ∧ (∀ a b : H, eqTest a (some b) = eqTest b (some a))
      ∧ (∀ a b c : H, eqTest a (some b) = some true → eqTest b (some c) = some true → eqTest a (some c) = some true) := by
  refine ⟨fun a => by simp [eqTest], fun a b => by simp [eqTest, eq_comm], ?_⟩
  rintro a b c h1 h2
  simp only [eqTest, Option.map_some, Option.some.injEq, decide_eq_true_eq] at *
  exact h1.trans h2

/-- **C122 fails.** An object equals the integer that is its hash, and comparing it with a list raises an exception:
the other operand of `==` is never looked at, only its hash. -/
theorem C122_other_fails (enc : Code V → ℤ) (c : Code V) :
    eqTest (enc c) (some (enc c)) = some true ∧ eqTest (enc c) none = none := by simp [eqTest]

theorem filterMap_eq_iff (a b : String → Option V) : ∀ keys : List String,
    keys.filterMap (fun k => (a k).map (Prod.mk k)) = keys.filterMap (fun k => (b k).map (Prod.mk k))
      → keys.Nodup → ∀ k ∈ keys, a k = b k
  | [], _, _ => by simp
  | k :: ks, h, hn => by
    have hk : ∀ (c : String → Option V) (v : V), (k, v) ∉ ks.filterMap (fun k => (c k).map (Prod.mk k)) := by
      intro c v hm
      obtain ⟨k', h1, h2⟩ := List.mem_filterMap.1 hm
      obtain ⟨v', _, h4⟩ := Option.map_eq_some_iff.1 h2
      cases h4
      exact (List.nodup_cons.1 hn).1 h1
    have ht := (List.nodup_cons.1 hn).2
    cases ha : a k with
    | none =>
      cases hb : b k with
      | none =>
        simp only [List.filterMap_cons, ha, hb, Option.map_none] at h
        intro k' hk'
        rcases List.mem_cons.1 hk' with rfl | h'
        · rw [ha, hb]
        · exact filterMap_eq_iff a b ks h ht k' h'
      | some v =>
        simp only [List.filterMap_cons, ha, hb, Option.map_none, Option.map_some] at h
        exact absurd (h ▸ List.mem_cons_self) (hk a v)
    | some v =>
      cases hb : b k with
      | none =>
        simp only [List.filterMap_cons, ha, hb, Option.map_none, Option.map_some] at h
        exact absurd (h ▸ List.mem_cons_self) (hk b v)
      | some w =>
        simp only [List.filterMap_cons, ha, hb, Option.map_some, List.cons.injEq, Prod.mk.injEq] at h
        intro k' hk'
        rcases List.mem_cons.1 hk' with rfl | h'
        · rw [ha, hb, h.1.2]
        · exact filterMap_eq_iff a b ks h.2 ht k' h'

/-- **C122.** Equations of state have the same model hash exactly if they have the same class and the same value, or
none, of every constant. -/
theorem C122_eos_model (keys : List String) (hn : keys.Nodup) (a b : Obj V) :
    eosModel keys a = eosModel keys b ↔ a.cls = b.cls ∧ ∀ k ∈ keys, a.attr k = b.attr k := by
  unfold eosModel
  constructor
  · intro h
    injection h with h1 h2
    exact ⟨h1, filterMap_eq_iff _ _ keys h2 hn⟩
  · rintro ⟨h1, h2⟩
    rw [h1, List.filterMap_congr fun k hk => by rw [h2 k hk]]

theorem getAll_iff (a b : String → Option V) : ∀ keys : List String, (getAll a keys).isSome →
    (getAll a keys = getAll b keys ↔ ∀ k ∈ keys, a k = b k)
  | [], _ => by simp [getAll]
  | k :: ks, h => by
    cases ha : a k with
    | none => simp [getAll, ha] at h
    | some v =>
      have hs : (getAll a ks).isSome := by simpa [getAll, ha] using h
      have ih := getAll_iff a b ks hs
      obtain ⟨l, hl⟩ := Option.isSome_iff_exists.1 hs
      cases hb : b k with
      | none => simp [getAll, ha, hb, hl]
      | some w =>
        simp only [getAll, ha, hb, hl, Option.bind_some, Option.map_some, List.mem_cons, forall_eq_or_imp,
          Option.some.injEq]
        rw [hl] at ih
        cases hbl : getAll b ks with
        | none => simp [hbl] at ih ⊢; intro _; exact ih
        | some l' => simp [hbl] at ih ⊢; intro _; exact ih

theorem getAll_some_iff (a : String → Option V) : ∀ keys : List String, (getAll a keys).isSome ↔ ∀ k ∈ keys, (a k).isSome
  | [] => by simp [getAll]
  | k :: ks => by
    have ih := getAll_some_iff a ks
    cases ha : a k <;> simp [getAll, ha, ← ih]

/-- **C122.** Phases with all their model attributes have the same model hash exactly if they have the same class and the
same attributes; if the phase is to be ignored, exactly if they have the same attributes. -/
theorem C122_phase_model (ign : Bool) (keys : List String) (a b : Obj V) (ha : ∀ k ∈ keys, (a.attr k).isSome) :
    phaseModel ign keys a = phaseModel ign keys b ↔ (ign = false → a.cls = b.cls) ∧ ∀ k ∈ keys, a.attr k = b.attr k := by
  have hs := (getAll_some_iff a.attr keys).2 ha
  have hi := getAll_iff a.attr b.attr keys hs
  obtain ⟨l, hl⟩ := Option.isSome_iff_exists.1 hs
  rw [← hi]
  unfold phaseModel
  rw [hl]
  cases getAll b.attr keys <;> cases ign <;> simp

/-- **C122.** Models of the excess Gibbs energy have the same hash exactly if they have the same class, number of components
and parameters. -/
theorem C122_gibbs_model (keys : List String) (a b : Obj V) (ha : ∀ k ∈ "N" :: keys, (a.attr k).isSome) :
    gibbsModel keys a = gibbsModel keys b ↔ a.cls = b.cls ∧ ∀ k ∈ "N" :: keys, a.attr k = b.attr k := by
  have h := C122_phase_model false ("N" :: keys) a b ha
  simp only [forall_const] at h
  exact h

/-- **C122.** An object without one of the attributes that its class lists has no hash: comparing it, or using it as a
key, raises an `AttributeError`. -/
theorem C122_missing (ign : Bool) (keys : List String) (o : Obj V) (k : String) (hk : k ∈ keys) (h : o.attr k = none) :
    phaseModel ign keys o = none := by
  have : ¬ (getAll o.attr keys).isSome := fun hs => by simpa [h] using (getAll_some_iff _ _).1 hs k hk
  rw [Option.not_isSome_iff_eq_none] at this
  simp [phaseModel, this]

/-- Some object with given attributes. -/
def mkObj (cls : String) (l : List (String × ℕ)) : Obj ℕ := ⟨cls, fun k => l.lookup k⟩

example := (C122_eos_model ["Tc", "Pc"] (by decide) (mkObj "PR" [("Tc", 1), ("Pc", 2)]) (mkObj "PR" [("Pc", 2), ("Tc", 1)])).2
  ⟨rfl, by decide⟩
example : eosModel ["Tc", "Pc"] (mkObj "PR" [("Tc", 1)]) ≠ eosModel ["Tc", "Pc"] (mkObj "PR" [("Pc", 1)]) := by decide
example := (C122_phase_model true ["Hfs"] (mkObj "CEOSGas" [("Hfs", 1)]) (mkObj "CEOSLiquid" [("Hfs", 1)]) (by decide)).2
  ⟨by decide, by decide⟩
example := (C122_gibbs_model ["tau_as"] (mkObj "NRTL" [("N", 2), ("tau_as", 1)]) (mkObj "NRTL" [("N", 2), ("tau_as", 1)])
  (by decide)).2 ⟨rfl, by decide⟩
example := C122_missing false ["a"] (mkObj "X" []) "a" (by decide) rfl

/-! ### Which constructor arguments the hashes cover -/

/-- A class: its constructor arguments other than state (`T`, `P`, `V`, `zs`, `xs`), and those whose values are in its model
hash, either as attributes of their own or inside others (`kwargs` of equations of state; the matrices into which
coefficient arrays are split; the flags that a basis selects). -/
structure Ctor where
  cls : String
  args : List String
  hashed : List String

/-- Constructor arguments that the hash does not cover. -/
def Ctor.lost (c : Ctor) : List String := c.args.filter fun a => a ∉ c.hashed

/-- Attributes of pure equations of state that are hashed (`eos.py` 897). -/
def eosKeys : List String := ["Tc", "Pc", "omega", "kwargs", "a", "b", "delta", "epsilon"]

/-- Attributes of mixture equations of state that are hashed (`eos_mix.py` 320). -/
def mixKeys : List String := ["N", "cmps", "Tcs", "Pcs", "omegas", "kijs", "kwargs", "ais", "bs"]

/-- A pure equation of state whose `kwargs` are `kw`. -/
def pureEos (cls : String) (kw : List String) (extra : List String := []) : Ctor :=
  ⟨cls, ["Tc", "Pc", "omega"] ++ kw ++ extra, eosKeys ++ kw ++ extra⟩

/-- A mixture equation of state whose `kwargs` are `kw`; `only_l` and `only_g` restrict the solutions kept. -/
def mixEos (cls : String) (kw : List String) : Ctor :=
  ⟨cls, ["Tcs", "Pcs", "omegas", "kijs"] ++ kw ++ ["only_l", "only_g"], mixKeys ++ kw⟩

/-- Pure equations of state, with their `kwargs` (`eos.py` 7217, 7482, 8058, 8139, 8237, 8328, 8502, 8626, 8885, 9186, 9498,
9828, 10115, 10241, 10390, 10496, 10597, 10807, 10901). `M` and `N` become `alpha_coeffs`. -/
def pures : List Ctor :=
  [pureEos "IG" [], pureEos "PR" [], pureEos "PR78" [], pureEos "PRTranslated" ["c", "alpha_coeffs"],
    pureEos "PRTranslatedPPJP" ["c"], pureEos "PRTranslatedCoqueletChapoyRichon" ["c", "alpha_coeffs"],
    pureEos "PRTranslatedConsistent" ["c", "alpha_coeffs"], pureEos "PRSV" ["kappa1"],
    pureEos "PRSV2" ["kappa1", "kappa2", "kappa3"], pureEos "VDW" [], pureEos "RK" [], pureEos "SRK" [],
    pureEos "SRKTranslated" ["c", "alpha_coeffs"], pureEos "MSRKTranslated" ["c", "alpha_coeffs"] ["M", "N"],
    pureEos "SRKTranslatedPPJP" ["c"], pureEos "SRKTranslatedConsistent" ["c", "alpha_coeffs"],
    pureEos "APISRK" ["S1", "S2"], pureEos "TWUPR" [], pureEos "TWUSRK" []]

/-- Mixture equations of state (`eos_mix.py` 6263-11374). -/
def mixes : List Ctor :=
  [mixEos "IGMIX" [], mixEos "RKMIX" [], mixEos "PRMIX" [], mixEos "PRMIXTranslated" ["cs"],
    mixEos "PRMIXTranslatedPPJP" ["cs"], mixEos "PRMIXTranslatedConsistent" ["cs", "alpha_coeffs"], mixEos "SRKMIX" [],
    mixEos "SRKMIXTranslated" ["cs"], mixEos "SRKMIXTranslatedConsistent" ["cs", "alpha_coeffs"],
    mixEos "MSRKMIXTranslated" ["cs", "alpha_coeffs"], mixEos "PSRK" ["cs", "alpha_coeffs", "ge_model"], mixEos "PR78MIX" [],
    mixEos "VDWMIX" [], mixEos "PRSVMIX" ["kappa1s"], mixEos "PRSV2MIX" ["kappa1s", "kappa2s", "kappa3s"],
    mixEos "TWUPRMIX" [], mixEos "TWUSRKMIX" [], mixEos "APISRKMIX" ["S1s", "S2s"]]

/-- Models of the excess Gibbs energy (`nrtl.py` 607, `wilson.py` 758, `uniquac.py` 670, `unifac.py` 5480,
`regular_solution.py` 552, 1648), virial coefficients (`phases/virial_phase.py`). -/
def models : List Ctor :=
  let abc (p : String) (l : List String) := l.map (p ++ ·)
  [⟨"IdealSolution", [], []⟩,
    ⟨"NRTL", ["tau_coeffs", "alpha_coeffs", "ABEFGHCD"] ++ abc "tau_" ["as", "bs", "es", "fs", "gs", "hs"]
        ++ abc "alpha_" ["cs", "ds"],
      abc "tau_" ["as", "bs", "es", "fs", "gs", "hs"] ++ abc "alpha_" ["cs", "ds"] ++ ["tau_coeffs", "alpha_coeffs", "ABEFGHCD"]⟩,
    ⟨"Wilson", ["lambda_coeffs", "ABCDEF"] ++ abc "lambda_" ["as", "bs", "cs", "ds", "es", "fs"],
      abc "lambda_" ["as", "bs", "cs", "ds", "es", "fs"] ++ ["lambda_coeffs", "ABCDEF"]⟩,
    ⟨"UNIQUAC", ["rs", "qs", "tau_coeffs", "ABCDEF"] ++ abc "tau_" ["as", "bs", "cs", "ds", "es", "fs"],
      abc "tau_" ["as", "bs", "cs", "ds", "es", "fs"] ++ ["rs", "qs"] ++ ["tau_coeffs", "ABCDEF"]⟩,
    ⟨"RegularSolution", ["Vs", "SPs", "lambda_coeffs"], ["Vs", "SPs", "lambda_coeffs"]⟩,
    ⟨"FloryHuggins", ["Vs", "SPs", "lambda_coeffs"], ["Vs", "SPs", "lambda_coeffs"]⟩,
    ⟨"Hansen", ["Vs", "delta_d", "delta_p", "delta_h", "alpha"], ["Vs", "delta_d", "delta_p", "delta_h", "alpha"]⟩,
    ⟨"VirialCSP", ["Tcs", "Pcs", "Vcs", "omegas", "B_model", "cross_B_model", "cross_B_model_kijs", "B_model_Meng_as",
        "B_model_Tsonopoulos_extended_as", "B_model_Tsonopoulos_extended_bs", "C_model", "cross_C_model"],
      ["Tcs", "Pcs", "Vcs", "omegas", "B_model", "cross_B_model", "cross_B_model_kijs", "B_model_Meng_as",
        "B_model_Tsonopoulos_extended_as", "B_model_Tsonopoulos_extended_bs", "C_model", "cross_C_model"]⟩]

/-- `UNIFAC` (`unifac.py` 5469, 5480). -/
def unifac : Ctor :=
  ⟨"UNIFAC", ["rs", "qs", "Qs", "vs", "psi_coeffs", "psi_abc", "psi_a", "psi_b", "psi_c", "version"],
    ["rs", "qs", "psi_a", "psi_b", "psi_c", "version"] ++ ["psi_coeffs", "psi_abc"]⟩

/-- A phase: `model_attributes`, and the attributes that its constructor (or class) sets. -/
structure PhaseClass where
  cls : String
  args : List String
  modelAttrs : List String
  sets : List String

/-- Attributes of `GibbsExcessLiquid` that are hashed (`phases/gibbs_excess.py` 233-242). -/
def liquidKeys : List String :=
  ["Hfs", "Gfs", "Sfs", "GibbsExcessModel", "eos_pure_instances", "use_Poynting", "use_phis_sat", "use_Tait", "use_eos_volume",
    "henry_components", "henry_as", "henry_bs", "henry_cs", "henry_ds", "henry_es", "henry_fs", "henry_mode",
    "Psat_extrpolation", "HeatCapacityGases", "VolumeLiquids", "VaporPressures", "HeatCapacityLiquids", "EnthalpyVaporizations"]

/-- Attributes that `GibbsExcessLiquid.__init__` sets (342-560). -/
def liquidSets : List String :=
  liquidKeys ++ ["VolumeSupercriticalLiquids", "equilibrium_basis", "caloric_basis", "use_Poynting_caloric",
    "use_phis_sat_caloric", "use_Hvap_caloric", "N", "T", "P", "zs"]

/-- `GibbsExcessLiquid` (300-321). -/
def liquid : PhaseClass :=
  ⟨"GibbsExcessLiquid", ["VaporPressures", "VolumeLiquids", "HeatCapacityGases", "GibbsExcessModel", "eos_pure_instances",
      "EnthalpyVaporizations", "HeatCapacityLiquids", "VolumeSupercriticalLiquids", "use_Hvap_caloric", "use_Poynting",
      "use_phis_sat", "use_Tait", "use_eos_volume", "Hfs", "Gfs", "Sfs", "henry_components", "henry_as", "henry_bs", "henry_cs",
      "henry_ds", "henry_es", "henry_fs", "henry_mode", "Psat_extrpolation"],
    liquidKeys, liquidSets⟩

/-- `IdealGas` (`ideal_gas.py` 86-110), `CEOSGas` and `CEOSLiquid` (`ceos.py` 88-100, 133-165), `VirialGas`
(`virial_phase.py` 970-1013), `CoolPropGas` and `CoolPropLiquid` (`coolprop_phase.py` 195-215), and the fixed models of water
and air (`iapws_phase.py` 42, 205, 661, `air_phase.py` 36). -/
def phases : List PhaseClass :=
  let h := ["Hfs", "Gfs", "Sfs"]
  let c := ["HeatCapacityGases"]
  [⟨"IdealGas", c ++ h, h ++ c, h ++ c⟩,
    ⟨"CEOSGas", ["eos_class", "eos_kwargs"] ++ c ++ h, h ++ ["eos_class", "eos_kwargs"] ++ c, ["eos_class", "eos_kwargs"] ++ h ++ c⟩,
    ⟨"CEOSLiquid", ["eos_class", "eos_kwargs"] ++ c ++ h, h ++ ["eos_class", "eos_kwargs"] ++ c,
      ["eos_class", "eos_kwargs"] ++ h ++ c⟩,
    ⟨"VirialGas", ["model", "HeatCapacityGases", "Hfs", "Gfs", "B_mixing_rule", "C_mixing_rule"],
      h ++ ["model", "B_mixing_rule", "C_mixing_rule"] ++ c, ["model", "B_mixing_rule", "C_mixing_rule"] ++ h ++ c⟩,
    ⟨"CoolPropGas", ["backend", "fluid"] ++ h, ["backend", "fluid"] ++ h, ["backend", "fluid"] ++ h⟩,
    ⟨"CoolPropLiquid", ["backend", "fluid"] ++ h, ["backend", "fluid"] ++ h, ["backend", "fluid"] ++ h⟩,
    ⟨"IAPWS95", [], ["model_name"], ["model_name"]⟩, ⟨"IAPWS97", [], ["model_name"], ["model_name"]⟩,
    ⟨"IAPWS06", [], ["model_name"], ["model_name"]⟩, ⟨"DryAirLemmon", [], ["model_name"], ["model_name"]⟩]

/-- `GibbsExcessSolid` (`gibbs_excess.py` 3380-3404): the constructor is that of the liquid, which does not set the names of
the solid. `GraysonStreed` and `ChaoSeader` (`petroleum.py` 46, 88-100): critical constants are stored with an
underscore. `HumidAirRP1485` (`air_phase.py` 178-207): attributes of `VirialGas` that it does not have. -/
def unhashable : List PhaseClass :=
  [⟨"GibbsExcessSolid", ["SublimationPressures", "VolumeSolids", "HeatCapacityGases", "EnthalpySublimations", "use_Poynting",
        "Hfs", "Gfs", "Sfs"],
      ["Hfs", "Gfs", "Sfs", "GibbsExcessModel", "eos_pure_instances", "use_Poynting", "use_phis_sat", "use_eos_volume",
        "henry_components", "henry_as", "henry_bs", "henry_cs", "henry_ds", "henry_es", "henry_fs", "Psat_extrpolation",
        "HeatCapacityGases", "SublimationPressures", "VolumeSolids", "EnthalpySublimations"], liquidSets⟩,
    ⟨"GraysonStreed", ["Tcs", "Pcs", "omegas", "CASs", "GibbsExcessModel"], ["Tcs", "Pcs", "omegas", "_CASs", "GibbsExcessModel"],
      ["T", "P", "zs", "N", "_Tcs", "_Pcs", "_omegas", "_CASs", "regular", "GibbsExcessModel"]⟩,
    ⟨"ChaoSeader", ["Tcs", "Pcs", "omegas", "CASs", "GibbsExcessModel"], ["Tcs", "Pcs", "omegas", "_CASs", "GibbsExcessModel"],
      ["T", "P", "zs", "N", "_Tcs", "_Pcs", "_omegas", "_CASs", "regular", "GibbsExcessModel"]⟩,
    ⟨"HumidAirRP1485", ["Hfs", "Gfs"], ["Hfs", "Gfs", "Sfs", "model", "B_mixing_rule", "C_mixing_rule", "HeatCapacityGases"],
      ["Hfs", "Gfs", "Sfs", "N", "psi_w", "psi_a", "zs", "T", "P", "air", "water", "_V", "_MW"]⟩]

/-- An instance: an object of that class with just the attributes that are set. -/
def PhaseClass.Instance (c : PhaseClass) (o : Obj V) : Prop := o.cls = c.cls ∧ ∀ k, (o.attr k).isSome ↔ k ∈ c.sets

/-- **C122.** The model hash of every pure equation of state, of every model of the excess Gibbs energy other than
`UNIFAC`, and of virial coefficients covers all parameters of its constructor; that of mixture equations of state all
but the choice of a phase. -/
theorem C122_covered : (∀ c ∈ pures ++ models, c.lost = []) ∧ ∀ c ∈ mixes, c.lost = ["only_l", "only_g"] := by
  constructor <;> decide +kernel

/-- **C122 fails.** The hash of `UNIFAC` does not cover the numbers of groups and their areas (`C97_hash_fails` has two
such models with different activity coefficients). -/
theorem C122_unifac_fails : unifac.lost = ["Qs", "vs"] := by decide +kernel

/-- **C122.** Instances of every phase class here, and of `GibbsExcessLiquid`, can be hashed; if two have the same model
hash they were constructed from the same arguments. For liquids, the same but for two arguments. -/
theorem C122_phases (c : PhaseClass) (hc : c ∈ liquid :: phases) (a b : Obj V) (ha : c.Instance a) :
    (phaseModel false c.modelAttrs a).isSome
      ∧ (phaseModel false c.modelAttrs a = phaseModel false c.modelAttrs b →
        ∀ k ∈ c.args, k ≠ "VolumeSupercriticalLiquids" → k ≠ "use_Hvap_caloric" → a.attr k = b.attr k) := by
  have h1 : ∀ c ∈ liquid :: phases, (∀ k ∈ c.modelAttrs, k ∈ c.sets)
      ∧ ∀ k ∈ c.args, k ≠ "VolumeSupercriticalLiquids" → k ≠ "use_Hvap_caloric" → k ∈ c.modelAttrs := by decide +kernel
  have hs : ∀ k ∈ c.modelAttrs, (a.attr k).isSome := fun k hk => (ha.2 k).2 ((h1 c hc).1 k hk)
  refine ⟨by simpa [phaseModel] using (getAll_some_iff a.attr _).2 hs, fun h k hk n1 n2 => ?_⟩
  exact ((C122_phase_model false _ a b hs).1 h).2 k ((h1 c hc).2 k hk n1 n2)

/-- **C122.** Apart from the liquid, the hashes of these classes cover all arguments. -/
theorem C122_phases_all (c : PhaseClass) (hc : c ∈ phases) (a b : Obj V) (ha : c.Instance a)
    (h : phaseModel false c.modelAttrs a = phaseModel false c.modelAttrs b) : ∀ k ∈ c.args, a.attr k = b.attr k := by
  have h1 : ∀ c ∈ phases, ∀ k ∈ c.args, k ≠ "VolumeSupercriticalLiquids" ∧ k ≠ "use_Hvap_caloric" := by decide +kernel
  exact fun k hk => (C122_phases c (by simp [hc]) a b ha).2 h k hk (h1 c hc k hk).1 (h1 c hc k hk).2

/-- **C122 fails.** No `GibbsExcessSolid`, `GraysonStreed`, `ChaoSeader` or `HumidAirRP1485` phase can be hashed or
compared: their classes list attributes that their constructors do not set. -/
theorem C122_unhashable_fails (c : PhaseClass) (hc : c ∈ unhashable) (o : Obj V) (ho : c.Instance o) (ign : Bool) :
    phaseModel ign c.modelAttrs o = none := by
  have h1 : ∀ c ∈ unhashable, ∃ k ∈ c.modelAttrs, k ∉ c.sets := by decide +kernel
  obtain ⟨k, hk, hn⟩ := h1 c hc
  refine C122_missing ign _ o k hk ?_
  rw [← Option.not_isSome_iff_eq_none]
  exact fun h => hn ((ho.2 k).1 h)

/-- An instance of a class whose attributes all have the value 0. -/
def zeroObj (c : PhaseClass) : Obj ℕ := ⟨c.cls, fun k => if k ∈ c.sets then some 0 else none⟩

theorem zeroObj_instance (c : PhaseClass) : c.Instance (zeroObj c) :=
  ⟨rfl, fun k => by by_cases h : k ∈ c.sets <;> simp [zeroObj, h]⟩

example := C122_phases liquid (by simp) (zeroObj liquid) (zeroObj liquid) (zeroObj_instance _)
example := C122_phases_all (phases.head (by decide)) (List.head_mem _) (zeroObj _) (zeroObj _) (zeroObj_instance _) rfl
example := C122_unhashable_fails (unhashable.head (by decide)) (List.head_mem _) (zeroObj _) (zeroObj_instance _) true

/-- A liquid made with given bases, all other arguments being the same: the attributes that flags of `ExcessState` set, the
rest is 0. -/
def liquidOf (f : ExcessState.Flags) : Obj (ℕ ⊕ Option Bool) :=
  ⟨"GibbsExcessLiquid", fun k =>
    if k = "use_Poynting" then some (.inr f.usePoynting)
    else if k = "use_phis_sat" then some (.inr f.usePhiSat)
    else if k = "use_Hvap_caloric" then some (.inr f.useHvapCal)
    else if k ∈ liquidSets then some (.inl 0) else none⟩

/-- **C122 fails.** Liquids whose enthalpies are computed in different ways, one from enthalpies of vaporization and one from
vapor pressures, have the same model hash; so a flash takes the two for the same liquid. -/
theorem C122_caloric_fails :
    let a := ExcessState.flags (some "Psat") (some "Hvap") false false false
    let b := ExcessState.flags (some "Psat") (some "Psat") false false false
    a.caloric ≠ b.caloric ∧ phaseModel false liquidKeys (liquidOf a) = phaseModel false liquidKeys (liquidOf b)
      ∧ (phaseModel false liquidKeys (liquidOf a)).isSome := by
  decide +kernel

/-! ### `is_same_model` -/

/-- A value and its identity. -/
abbrev Ref (V : Type) := ℕ × V

/-- Hash of an object whose attributes are references: of the values. -/
def deref (o : Obj (Ref V)) : Obj V := ⟨o.cls, fun k => (o.attr k).map Prod.snd⟩

/-- `Phase.is_same_model` (`phases/phase.py` 303-324) for two objects that are not the same one; `none` for an exception. The
tuples `model_attributes` are `ka`, `kb`. -/
def sameModel [DecidableEq V] (ign : Bool) (ka kb : List String) (a b : Obj (Ref V)) : Option Bool :=
  if ka ≠ kb then some false
  else if ka.all fun k => (a.attr k).map Prod.fst = (b.attr k).map Prod.fst ∧ (a.attr k).isSome then
    if ign then some true else some (a.cls = b.cls)
  else (phaseModel ign ka (deref a)).bind fun x => (phaseModel ign kb (deref b)).map fun y => decide (x = y)

/-- **C122.** `is_same_model` tells whether two phases have the same attributes with the same values (and the same class,
unless the phase is ignored), whether it decides by identity or by hashes. -/
theorem C122_same_model [DecidableEq V] (ign : Bool) (ka kb : List String) (a b : Obj (Ref V))
    (heap : ∀ k x y, a.attr k = some x → b.attr k = some y → x.1 = y.1 → x = y)
    (ha : ∀ k ∈ ka, (a.attr k).isSome) (hb : ∀ k ∈ kb, (b.attr k).isSome) :
    sameModel ign ka kb a b = some true
      ↔ ka = kb ∧ (ign = false → a.cls = b.cls) ∧ ∀ k ∈ ka, (a.attr k).map Prod.snd = (b.attr k).map Prod.snd := by
  unfold sameModel
  by_cases hk : ka = kb
  · subst hk
    rw [if_neg (not_not.2 rfl)]
    split_ifs with h1 h2
    · simp only [List.all_eq_true, decide_eq_true_eq] at h1
      simp only [true_iff, true_and]
      refine ⟨by simp [h2], fun k hk => ?_⟩
      obtain ⟨x, hx⟩ := Option.isSome_iff_exists.1 (ha k hk)
      obtain ⟨y, hy⟩ := Option.isSome_iff_exists.1 (hb k hk)
      have := (h1 k hk).1
      rw [hx, hy] at this ⊢
      rw [heap k x y hx hy (by simpa using this)]
    · simp only [List.all_eq_true, decide_eq_true_eq] at h1
      simp only [Option.some.injEq, decide_eq_true_eq, true_and]
      refine ⟨fun h => ⟨fun _ => h, fun k hk => ?_⟩, fun h => h.1 (by simpa using h2)⟩
      obtain ⟨x, hx⟩ := Option.isSome_iff_exists.1 (ha k hk)
      obtain ⟨y, hy⟩ := Option.isSome_iff_exists.1 (hb k hk)
      have := (h1 k hk).1
      rw [hx, hy] at this ⊢
      rw [heap k x y hx hy (by simpa using this)]
    · have ha' : ∀ k ∈ ka, ((deref a).attr k).isSome := fun k hk => by simpa [deref] using ha k hk
      have hb' : ∀ k ∈ ka, ((deref b).attr k).isSome := fun k hk => by simpa [deref] using hb k hk
      have hs := C122_phase_model ign ka (deref a) (deref b) ha'
      obtain ⟨l, hl⟩ := Option.isSome_iff_exists.1 ((getAll_some_iff _ _).2 ha')
      obtain ⟨l', hl'⟩ := Option.isSome_iff_exists.1 ((getAll_some_iff _ _).2 hb')
      simp only [phaseModel, hl, hl', Option.map_some, Option.some.injEq] at hs
      simp only [phaseModel, hl, hl', Option.map_some, Option.bind_some, Option.some.injEq, decide_eq_true_eq]
      rw [hs]
      simp [deref]
  · rw [if_pos hk]
    simp [hk]

example := C122_same_model true ["Hfs"] ["Hfs"] (⟨"CEOSGas", fun k => if k = "Hfs" then some (1, 5) else none⟩ : Obj (Ref ℕ))
  ⟨"CEOSLiquid", fun k => if k = "Hfs" then some (2, 5) else none⟩
  (by intro k x y hx hy; by_cases h : k = "Hfs" <;> simp [h] at hx hy; subst hx hy; simp) (by decide) (by decide)

/-! ### Memoised hashes -/

/-- An object and its memo: `_model_hash`, or `_hash` of `ChemicalConstantsPackage`. -/
structure Memo (V : Type) where
  obj : Obj V
  memo : Option (Code V)

/-- `model_hash` with the memo (`eos.py` 940-951, `activity.py` 350-361, `chemical_package.py` 649-658). -/
def Memo.hash (f : Obj V → Code V) (m : Memo V) : Code V × Memo V :=
  match m.memo with
  | some h => (h, m)
  | none => (f m.obj, { m with memo := some (f m.obj) })

/-- Assigning to an attribute. -/
def Memo.set (m : Memo V) (k : String) (v : V) : Memo V :=
  { m with obj := { m.obj with attr := fun k' => if k' = k then some v else m.obj.attr k' } }

/-- A history of an object. -/
inductive Step (V : Type)
  | hash
  | set (k : String) (v : V)

/-- Run one. -/
def Memo.step (f : Obj V → Code V) (m : Memo V) : Step V → Memo V
  | .hash => (m.hash f).2
  | .set k v => m.set k v

/-- **C122.** If no hash is taken before the last assignment, the hash is that of the current attributes; and it stays the same
as long as nothing is assigned. -/
theorem C122_memo (f : Obj V → Code V) (o : Obj V) (w : List (String × V)) (n : ℕ) :
    let m := w.foldl (fun m p => m.set p.1 p.2) (⟨o, none⟩ : Memo V)
    (((fun m => (Memo.hash f m).2)^[n] m).hash f).1 = f m.obj ∧ ((fun m => (Memo.hash f m).2)^[n] m).obj = m.obj := by
  intro m
  have hm : m.memo = none := by
    have : ∀ (w : List (String × V)) (m : Memo V), m.memo = none → (w.foldl (fun m p => m.set p.1 p.2) m).memo = none := by
      intro w
      induction w with
      | nil => exact fun _ h => h
      | cons p ps ih => exact fun m h => ih _ h
    exact this w _ rfl
  have key : ∀ n, ((fun m => (Memo.hash f m).2)^[n] m).obj = m.obj
      ∧ (((fun m => (Memo.hash f m).2)^[n] m).memo = none ∨ ((fun m => (Memo.hash f m).2)^[n] m).memo = some (f m.obj)) := by
    intro n
    induction n with
    | zero => exact ⟨rfl, Or.inl hm⟩
    | succ n ih =>
      rw [Function.iterate_succ_apply']
      generalize (fun m => (Memo.hash f m).2)^[n] m = m' at ih ⊢
      obtain ⟨h1, h2⟩ := ih
      rcases h2 with h2 | h2
      · simp [Memo.hash, h2, h1]
      · simp [Memo.hash, h2, h1]
  have hn := key n
  generalize (fun m => (Memo.hash f m).2)^[n] m = m' at hn ⊢
  obtain ⟨h1, h2⟩ := hn
  refine ⟨?_, h1⟩
  rcases h2 with h2 | h2 <;> simp [Memo.hash, h2, h1]

/-- **C122 fails.** A hash that was taken once is returned after every later assignment: two objects that now have
different parameters still compare equal. -/
theorem C122_stale_fails (f : Obj V → Code V) (o : Obj V) (k : String) (v : V) (hf : f o ≠ f (Memo.set ⟨o, none⟩ k v).obj) :
    let m := [Step.hash, .set k v].foldl (Memo.step f) ⟨o, none⟩
    (m.hash f).1 = f o ∧ (m.hash f).1 ≠ f m.obj := by
  refine ⟨rfl, hf⟩

example := C122_memo (eosModel ["Tc"]) (mkObj "PR" [("Tc", 1)]) [("Tc", 2)] 3
example := C122_stale_fails (eosModel ["Tc"]) (mkObj "PR" [("Tc", 1)]) "Tc" 2 (by decide)

/-! ### State, caches, containers -/

/-- **C122 fails.** The same state of the same equation of state, given once by pressure and once by volume, is unequal: the
hash takes the attribute `V`, which is `None` if the pressure was given. And a mixture that kept only the liquid equals one
that kept only the vapor, since `only_l` and `only_g` are not hashed. -/
theorem C122_state_fails :
    (∃ a b : Obj ℕ, a.cls = b.cls ∧ (∀ k ∈ eosKeys ++ ["T", "P"], a.attr k = b.attr k)
      ∧ (a.attr "V" = none) ∧ b.attr "V" = some 3 ∧ eosState eosKeys a ≠ eosState eosKeys b)
    ∧ ∃ a b : Obj ℕ, a.attr "only_l" ≠ b.attr "only_l" ∧ eosState mixKeys a = eosState mixKeys b :=
  ⟨⟨mkObj "PR" [("Tc", 1), ("T", 1), ("P", 2)], mkObj "PR" [("Tc", 1), ("T", 1), ("P", 2), ("V", 3)], by decide⟩,
    mkObj "PRMIX" [("T", 1), ("only_l", 1)], mkObj "PRMIX" [("T", 1), ("only_l", 0)], by decide⟩

/-- `TDependentProperty.__hash__` (`utils/t_dependent_property.py` 1561-1577): attributes outside the ignored ones, with their
names; `__dict__` is given by the list of its names. -/
def tdepHash (ignored : List String) (names : List String) (o : Obj V) : Code V :=
  eosModel (names.filter fun k => k ∉ ignored) o

/-- `hash_ignore_props` (1561-1563). -/
def ignoreProps : List String :=
  ["extrapolation_coeffs", "prop_cached", "TP_cached", "tabular_data_interpolators", "tabular_data_interpolators_P", "T_cached"]

/-- `MixtureProperty.__hash__` (`utils/mixture_property.py` 91-94): all of `__dict__`. -/
def mixPropHash (names : List String) (o : Obj V) : Code V := eosModel names o

/-- **C122.** Evaluating a property of a pure component, which writes caches, leaves its hash as it was. -/
theorem C122_tdep (names : List String) (o : Obj V) (k : String) (hk : k ∈ ignoreProps) (v : V) :
    tdepHash ignoreProps names (Memo.set ⟨o, none⟩ k v).obj = tdepHash ignoreProps names o := by
  unfold tdepHash eosModel
  refine congrArg _ (List.filterMap_congr fun k' hk' => ?_)
  have : k' ≠ k := by
    rintro rfl
    simp only [List.mem_filter, decide_eq_true_eq] at hk'
    exact hk'.2 hk
  simp [Memo.set, this]

/-- **C122 fails.** Evaluating a property of a mixture changes its hash: it does not equal its copy any more
(`prop_cached`, `TP_zs_ws_cached` are hashed). -/
theorem C122_mixture_cache_fails (names : List String) (hn : names.Nodup) (o : Obj V) (k : String)
    (hk : k ∈ names) (v : V) (hv : o.attr k ≠ some v) :
    mixPropHash names (Memo.set ⟨o, none⟩ k v).obj ≠ mixPropHash names o := by
  intro h
  have := ((C122_eos_model names hn _ _).1 h).2 k hk
  simp [Memo.set] at this
  exact hv this.symm

/-- **C122.** Flashers of one class with the same references set are equal exactly if the references are. -/
theorem C122_flash (refs : List String) (a b : Obj V) (h : ∀ k ∈ refs, (a.attr k).isSome ↔ (b.attr k).isSome) :
    flashHash refs a = flashHash refs b ↔ a.cls = b.cls ∧ ∀ k ∈ refs, a.attr k = b.attr k := by
  have key : ∀ refs : List String, (∀ k ∈ refs, (a.attr k).isSome ↔ (b.attr k).isSome) →
      (refs.filterMap a.attr = refs.filterMap b.attr ↔ ∀ k ∈ refs, a.attr k = b.attr k) := by
    intro refs
    induction refs with
    | nil => simp
    | cons k ks ih =>
      intro h
      have ih' := ih fun k hk => h k (List.mem_cons_of_mem _ hk)
      have hk := h k List.mem_cons_self
      cases ha : a.attr k <;> cases hb : b.attr k <;> simp [ha, hb] at hk ⊢ <;> simp [ih']
  unfold flashHash
  rw [← key refs h]
  simp

/-- A flasher with one solid: its references are given by their hashes. -/
def withSolid (cls : String) (attr : String → Option (Code V)) (keys : List String) (solid : Obj V) : Obj (Code V) :=
  ⟨cls, fun k => if k = "solids" then phaseModel false keys solid else attr k⟩

/-- **C122 fails.** Flashers with entirely different solids are equal: hashing a solid raises an exception, and what cannot be
hashed is skipped. -/
theorem C122_flash_solids_fails (c : PhaseClass) (hc : c ∈ unhashable) (cls : String) (attr : String → Option (Code V))
    (s s' : Obj V) (hs : c.Instance s) (hs' : c.Instance s') :
    flashHash flashRefs (withSolid cls attr c.modelAttrs s) = flashHash flashRefs (withSolid cls attr c.modelAttrs s') := by
  unfold withSolid
  rw [C122_unhashable_fails c hc s hs, C122_unhashable_fails c hc s' hs']

/-- **C122.** Packages are equal if the listed attributes are, and only then. -/
theorem C122_package (keys : List String) (a b : Obj V) (ha : ∀ k ∈ keys, (a.attr k).isSome) :
    packageHash keys a = packageHash keys b ↔ ∀ k ∈ keys, a.attr k = b.attr k := by
  rw [← getAll_iff a.attr b.attr keys ((getAll_some_iff _ _).2 ha)]
  unfold packageHash
  cases getAll a.attr keys <;> cases getAll b.attr keys <;> simp

/-- **C122 fails.** Packages of correlations that belong to different constants, and even objects of different classes, are
equal: `constants`, `skip_missing` and the class are not hashed. -/
theorem C122_correlations_fails (correlations : List String) (h1 : "constants" ∉ correlations) (h2 : "skip_missing" ∉ correlations)
    (o : Obj V) (c s : V) (cls : String) :
    packageHash correlations ⟨cls, fun k => if k = "constants" then some c else if k = "skip_missing" then some s else o.attr k⟩
      = packageHash correlations o := by
  unfold packageHash
  have : ∀ (ks : List String), "constants" ∉ ks → "skip_missing" ∉ ks →
      getAll (fun k => if k = "constants" then some c else if k = "skip_missing" then some s else o.attr k) ks = getAll o.attr ks := by
    intro ks
    induction ks with
    | nil => intros; rfl
    | cons k ks ih =>
      intro h1 h2
      simp only [List.mem_cons, not_or] at h1 h2
      simp only [getAll, if_neg (Ne.symm h1.1), if_neg (Ne.symm h2.1), ih h1.2 h2.2]
  rw [this _ h1 h2]

example := C122_tdep ["T_cached", "method"] (mkObj "VaporPressure" [("method", 1)]) "T_cached" (by decide) 4
example : tdepHash ignoreProps ["T_cached", "method"] (mkObj "VaporPressure" [("method", 1)])
    ≠ tdepHash ignoreProps ["T_cached", "method"] (mkObj "VaporPressure" [("method", 2)]) := by decide
example := C122_mixture_cache_fails ["prop_cached"] (by decide) (mkObj "VolumeLiquidMixture" []) "prop_cached" (by decide) 4
  (by decide)
example := C122_flash flashRefs (mkObj "FlashVL" [("gas", 1), ("liquid", 2)]) (mkObj "FlashVL" [("liquid", 2), ("gas", 1)])
  (by decide)
example := C122_flash_solids_fails (unhashable.head (by decide)) (List.head_mem _) "FlashPureVLS" (fun _ => some (.vals [1]))
  (zeroObj _) ⟨"GibbsExcessSolid", fun k => if k ∈ liquidSets then some 7 else none⟩ (zeroObj_instance _)
  ⟨rfl, fun k => by by_cases h : k ∈ liquidSets <;> simp [unhashable, h]⟩
example := (C122_package ["MWs"] (mkObj "ChemicalConstantsPackage" [("MWs", 1)]) (mkObj "ChemicalConstantsPackage" [("MWs", 1)])
  (by decide)).2 (by decide)
example := C122_correlations_fails ["VaporPressures"] (by decide) (by decide) (mkObj "P" [("VaporPressures", 1)]) 1 2 "Q"

end Verif.Identity
