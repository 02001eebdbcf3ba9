import Verif.Functional.Checks
import Verif.Equilibrium.Reports
import Mathlib.Algebra.BigOperators.Field

/-!
# The class `Mixture` (`thermo/mixture.py`)

* C110: arguments that give the composition (67-175), mole and mass fractions (576-630), the flash and what it stores (949-1026), the equation of state (550, 854-868) and properties of
  one or two phases (1118-1142, 1328-1375, 2095-2108, 2756-2772, 2896-2945, 3002-3037, 3195-3269, 3379-3411).

Left out: the tables of pure component values (652-778), the property objects (885-924; here arbitrary functions of temperature, pressure and composition) and the package, of which only
the result of `flash_caloric` is read.
-/

namespace Verif.MixtureObj

open Finset

/-! ## Arguments -/

/-- A composition argument: a list or array, or a dictionary in its order. -/
inductive Comp
  | arr (l : List ℝ)
  | dict (l : List (String × ℝ))

/-- The argument `IDs`. -/
inductive Ids
  | missing
  | str (s : String)
  | list (l : List String)
deriving DecidableEq

/-- The five values that go in and come out of `preprocess_mixture_composition`. -/
structure Args where
  ids : Ids
  (zs ws vl vg : Option Comp)

/-- Exceptions of lines 102-174: none of the compositions given, several given, wrong length, `len(None)`. -/
inductive Err | required | multiple | length | typeError
deriving DecidableEq

/-- Lines 102-120. `look` is `mixture_from_any`, `none` when it raises; the branch of lines 116-120 cannot be reached. -/
def recognise (look : Ids → Option (List String × List ℝ)) (a : Args) : Args :=
  match a.ids with
  | .missing => a
  | .str s => match look (.str s) with
    | some m => { a with ids := .list m.1, ws := some (.arr m.2) }
    | none => { a with ids := .list [s], zs := some (.arr [1]) }
  | .list [s] => match look (.list [s]) with
    | some m => { a with ids := .list m.1, ws := some (.arr m.2) }
    | none => if a.zs.isNone && a.ws.isNone && a.vl.isNone && a.vg.isNone then { a with zs := some (.arr [1]) } else a
  | .list _ => a

/-- `list(zs)`, `list(zs.values())`. -/
def Comp.values : Comp → List ℝ
  | .arr l => l
  | .dict l => l.map Prod.snd

/-- `IDs` after `list(zs.keys())`. -/
def Comp.keys (i : Ids) : Comp → Ids
  | .arr _ => i
  | .dict l => .list (l.map Prod.fst)

/-- Lines 123-165: the first composition that is given becomes a list; its keys become the identifiers. -/
def unpack (a : Args) : Option (Args × List ℝ) :=
  match a.zs, a.ws, a.vl, a.vg with
  | some c, _, _, _ => some ({ a with ids := c.keys a.ids, zs := some (.arr c.values) }, c.values)
  | none, some c, _, _ => some ({ a with ids := c.keys a.ids, ws := some (.arr c.values) }, c.values)
  | none, none, some c, _ => some ({ a with ids := c.keys a.ids, vl := some (.arr c.values) }, c.values)
  | none, none, none, some c => some ({ a with ids := c.keys a.ids, vg := some (.arr c.values) }, c.values)
  | none, none, none, none => none

/-- `(zs is not None) + …` of line 169. -/
def Args.given (a : Args) : ℕ :=
  a.zs.isSome.toNat + a.ws.isSome.toNat + a.vl.isSome.toNat + a.vg.isSome.toNat

/-- `preprocess_mixture_composition` (67-175) with `ignore_exceptions=False`. -/
def preprocess (look : Ids → Option (List String × List ℝ)) (a : Args) : Except Err Args :=
  match unpack (recognise look a) with
  | none => .error .required
  | some (b, v) => match b.ids with
    | .list l =>
      if 1 < l.length ∧ 1 < b.given then .error .multiple
      else if v.length ≠ l.length then .error .length
      else .ok b
    | _ => .error .typeError

/-! ## Composition -/

section Composition
variable {N : ℕ}

/-- `zs if sum(zs) == 1 else [zi/sum(zs) for zi in zs]` (598). -/
noncomputable def norm (z : Fin N → ℝ) : Fin N → ℝ :=
  open Classical in if ∑ i, z i = 1 then z else fun i => z i / ∑ j, z j

/-- `zs_to_ws` of `chemicals`. -/
noncomputable def toMass (MW z : Fin N → ℝ) : Fin N → ℝ := fun i => z i * MW i / ∑ j, z j * MW j

/-- `ws_to_zs` of `chemicals`. -/
noncomputable def toMole (MW w : Fin N → ℝ) : Fin N → ℝ := fun i => w i / MW i / ∑ j, w j / MW j

/-- Mole and mass fractions from mole fractions (597-599). -/
noncomputable def ofMole (MW z : Fin N → ℝ) : (Fin N → ℝ) × (Fin N → ℝ) := (norm z, toMass MW z)

/-- From mass fractions (600-602). -/
noncomputable def ofMass (MW w : Fin N → ℝ) : (Fin N → ℝ) × (Fin N → ℝ) := (toMole MW w, norm w)

/-- From volume fractions and molar volumes of the pure components (603-623); `Vfs_to_zs` of `chemicals` divides by the volumes as `ws_to_zs` does by molecular weights. -/
noncomputable def ofVolume (MW V f : Fin N → ℝ) : (Fin N → ℝ) × (Fin N → ℝ) :=
  (toMole V (norm f), toMass MW (toMole V (norm f)))

/-- `mixing_simple`. -/
noncomputable def mix (z p : Fin N → ℝ) : ℝ := ∑ i, z i * p i

/-- The volumes of line 613 or 621: `v` the liquid volume of component `i`; `Vmls` are at the temperature and pressure of the chemicals. -/
noncomputable def vfVolumes (v : Fin N → ℝ → ℝ → ℝ) (T P Tvf Pvf : Option ℝ) : Fin N → ℝ :=
  open Classical in
  let Tu := T.getD 298.15
  let Pu := P.getD 101325
  let t := Tvf.getD Tu
  let p := Pvf.getD Pu
  if some t ≠ T ∨ some p ≠ P then fun i => v i t p else fun i => v i Tu Pu

/-- `Vfls` (1118-1142). -/
noncomputable def Vfls (v : Fin N → ℝ → ℝ → ℝ) (z : Fin N → ℝ) (T P : ℝ) (T' P' : Option ℝ) : Fin N → ℝ :=
  open Classical in
  if (T' = none ∨ T' = some T) ∧ (P' = none ∨ P' = some P) then toMass (fun i => v i T P) z
  else toMass (fun i => v i (T'.getD T) (P'.getD P)) z

end Composition

/-! ## Flash -/

/-- Phases reported by a package. -/
inductive Ph | l | g | lg
deriving DecidableEq

/-- What `flash_caloric` reads of a package that succeeded. -/
structure Out (N : ℕ) where
  (T P VF Hm Sm Gm : ℝ) (xs ys : Option (Fin N → ℝ)) (phase : Ph)

/-- Attributes stored by the flash; `none` is `None` or not yet set. -/
structure St (N : ℕ) where
  (T P VF V_over_F Hm Sm Gm H S G MWl MWg x : Option ℝ) (xs ys wsl wsg : Option (Fin N → ℝ)) (phase : Option Ph)

/-- Arguments of `flash_caloric`. -/
structure Spec where
  (T P VF Hm Sm H S : Option ℝ)

/-- `property_molar_to_mass`, `property_mass_to_molar`. -/
noncomputable def toPerMass (a MW : ℝ) : ℝ := a * 1000 / MW

@[inherit_doc toPerMass]
noncomputable def toPerMole (a MW : ℝ) : ℝ := a * MW / 1000

/-- `vapor_mass_quality` of `chemicals`. -/
noncomputable def massQuality (VF MWl MWg : ℝ) : ℝ := VF * MWg / (VF * MWg + (1 - VF) * MWl)

/-- `flash_caloric` (949-1026). The package answers `none` when its `status` is not true. Not covered: a package with neither `xs` nor `ys` (a `TypeError`), the reactive properties (972-986). -/
noncomputable def flash {N : ℕ} (MWs z : Fin N → ℝ) (pkg : Option ℝ → Option ℝ → Option ℝ → Option ℝ → Option ℝ → Option (Out N)) (q : Spec) (s : St N) : St N :=
  let MW := mix z MWs
  let Hm := match q.H with | some h => some (toPerMole h MW) | none => q.Hm
  let Sm := match q.S with | some e => some (toPerMole e MW) | none => q.Sm
  match pkg q.T q.P q.VF Hm Sm with
  | some o =>
    let MWl := o.xs.map fun x => mix x MWs
    let MWg := o.ys.map fun y => mix y MWs
    let wsl := o.xs.map fun x => toMass MWs x
    let wsg := o.ys.map fun y => toMass MWs y
    let q := match MWl, MWg with
      | some a, some b => massQuality o.VF a b
      | _, _ => if o.phase = .g then 1 else 0
    { T := some o.T, P := some o.P, VF := some o.VF, V_over_F := some o.VF, Hm := some o.Hm, Sm := some o.Sm, Gm := some o.Gm
      H := some (toPerMass o.Hm MW), S := some (toPerMass o.Sm MW), G := some (toPerMass o.Gm MW)
      MWl := MWl.orElse fun _ => MWg, MWg := MWg.orElse fun _ => MWl
      x := some q, xs := o.xs, ys := o.ys
      wsl := wsl.orElse fun _ => wsg, wsg := wsg.orElse fun _ => wsl, phase := some o.phase }
  | none => { s with T := q.T, P := q.P, VF := q.VF, Hm := Hm, Sm := Sm, H := q.H, S := q.S }

/-! ## Equation of state -/

/-- The list `eos_in_a_box` of the class, its one element or nothing, and the assignments `mixtures[i].eos = e` in their order (550, 864-868). -/
def assign {E : Type} (box : Option E) (log : List (ℕ × E)) : Option E :=
  log.foldl (fun _ a => some a.2) box

/-- `mixtures[i].eos` (854-862): `self.eos_in_a_box[0]`; `none` is an `IndexError`. -/
def readEos {E : Type} (box : Option E) (_i : ℕ) : Option E := box

/-! ## Properties -/

/-- Lines 2922-2924 and, with molar densities, 2941-2943. -/
noncomputable def blend (x rhol rhog : ℝ) : ℝ :=
  let a := (1 - x) / rhol
  let b := x / rhog
  rhol * a / (a + b) + b / (a + b) * rhog

/-- `Vm_to_rho`. -/
noncomputable def toRho (V MW : ℝ) : ℝ := MW / 1000 / V

/-- `Vm` (2896-2907), `Cp`, `Cpm`, `SG`, `isobaric_expansion`: `'l/g'` is not one of the phases known to `phase_select_property`. Outer `none`: an exception. -/
def bulk (p : Ph) (l g : Option ℝ) : Option (Option ℝ) :=
  Functional.select (match p with | .l => .l | .g => .g | .lg => .other) none l g

/-- `Um` (1030-1039): `Vm` is read first. -/
noncomputable def Um (p : Ph) (Vl Vg Hm : Option ℝ) (P : ℝ) : Option (Option ℝ) :=
  (bulk p Vl Vg).map fun V => match V, Hm with
    | some v, some h => if v = 0 then none else some (h - P * v)
    | _, _ => none

/-- `SGg` (2756-2772): `V` the molar volume of a gas of composition `ys` at 15.6 °C. -/
noncomputable def SGg (MW V : ℝ) : ℝ := toRho V MW / 1.2231876628642968

/-- `Zl_STP`, `Zg_STP` (3195-3221): the volume and the conditions of now. -/
noncomputable def ZSTP (R : ℝ) (V : ℝ → ℝ → ℝ) (T P : ℝ) : ℝ := P * V T P / (R * T)

/-- `isobaric_expansion_g`, `isobaric_expansion_l` (3002-3037): `dV` the derivative of the volume with temperature at a composition, `V` the volume. -/
noncomputable def expansion {N : ℕ} (V dV : (Fin N → ℝ) → ℝ) (zs phase : Fin N → ℝ) : ℝ := dV zs / V phase

/-- `API` (3254-3269); `none`: `rho` is not bound. A volume of zero counts as missing. -/
noncomputable def API (V : Option ℝ) (MW : ℝ) : Option ℝ :=
  match V with
  | none => none
  | some v => if v = 0 then none else some (141.5 / (toRho v MW / 999.016) - 131.5)

/-- `nugs` (2095-2108). -/
def nugs (nul _nug : List ℝ) : List ℝ := nul

/-- `mass_fractions` (1360-1375) by element: `n i a` atoms of `a` in a molecule of `i`, `M a` atomic weights. -/
noncomputable def elementMass {N : ℕ} {A : Type} [Fintype A] (z : Fin N → ℝ) (n : Fin N → A → ℝ) (M : A → ℝ) (a : A) : ℝ :=
  (∑ i, z i * n i a) * M a / ∑ b, (∑ i, z i * n i b) * M b

/-- `properties(copy_pures, copy_mixtures)` (3379-3411) and the attribute it leaves. -/
def properties (memo : Option (Bool × Bool)) (pures mixtures : Bool) : (Bool × Bool) × Option (Bool × Bool) :=
  match memo with
  | some m => (m, some m)
  | none => ((pures, mixtures), some (pures, mixtures))

/-! ## Theorems: arguments -/

theorem unpack_spec {a b : Args} {v : List ℝ} (h : unpack a = some (b, v)) :
    (b.zs = some (.arr v) ∨ b.zs = none ∧ b.ws = some (.arr v) ∨ b.zs = none ∧ b.ws = none ∧ b.vl = some (.arr v) ∨
      b.zs = none ∧ b.ws = none ∧ b.vl = none ∧ b.vg = some (.arr v)) ∧ b.given = a.given := by
  obtain ⟨i, z, w, l, g⟩ := a
  rcases z with _ | z <;> rcases w with _ | w <;> rcases l with _ | l <;> rcases g with _ | g <;>
    simp only [unpack, Option.some.injEq, Prod.mk.injEq, reduceCtorEq] at h <;>
    obtain ⟨rfl, rfl⟩ := h <;> simp [Args.given]

/-- **C110.** What `preprocess_mixture_composition` accepts: a list of identifiers and, as the first of `zs`, `ws`, `Vfls`, `Vfgs` that is present, a list of numbers of the
same length; with two or more identifiers nothing else is present. -/
theorem C110_accepted {look : Ids → Option (List String × List ℝ)} {a b : Args} (h : preprocess look a = .ok b) :
    ∃ l v, b.ids = .list l ∧ v.length = l.length ∧
      (b.zs = some (.arr v) ∨ b.zs = none ∧ b.ws = some (.arr v) ∨ b.zs = none ∧ b.ws = none ∧ b.vl = some (.arr v) ∨
        b.zs = none ∧ b.ws = none ∧ b.vl = none ∧ b.vg = some (.arr v)) ∧
      (1 < l.length → b.zs.isSome.toNat + b.ws.isSome.toNat + b.vl.isSome.toNat + b.vg.isSome.toNat = 1) := by
  unfold preprocess at h
  split at h
  · cases h
  · rename_i c v hc
    split at h
    · rename_i l hl
      split_ifs at h with h1 h2
      cases h
      have hs := (unpack_spec hc).1
      refine ⟨l, v, hl, by omega, hs, fun h3 => ?_⟩
      have h4 : ¬ 1 < b.given := fun h5 => h1 ⟨h3, h5⟩
      unfold Args.given at h4
      have h6 : 1 ≤ b.zs.isSome.toNat + b.ws.isSome.toNat + b.vl.isSome.toNat + b.vg.isSome.toNat := by
        rcases hs with hs | hs | hs | hs <;> simp [hs] <;> omega
      omega
    · cases h

example : ∃ l v, Ids.list ["water"] = .list l ∧ v.length = l.length ∧ (some (Comp.arr [1]) = some (.arr v)) := by
  obtain ⟨l, v, h1, h2, h3, -⟩ := C110_accepted (look := fun _ => none) (a := ⟨.str "water", none, none, none, none⟩)
    (b := ⟨.list ["water"], some (.arr [1]), none, none, none⟩) (by simp [preprocess, recognise, unpack, Comp.keys, Comp.values, Args.given])
  exact ⟨l, v, h1, h2, by simpa using h3⟩

/-- **C110.** Two or more identifiers in a list: accepted and unchanged exactly with one composition, a list of their length. -/
theorem C110_list (look : Ids → Option (List String × List ℝ)) (l : List String) (hl : 2 ≤ l.length) (v : List ℝ) (hv : v.length = l.length) :
    preprocess look ⟨.list l, some (.arr v), none, none, none⟩ = .ok ⟨.list l, some (.arr v), none, none, none⟩ ∧
    preprocess look ⟨.list l, none, some (.arr v), none, none⟩ = .ok ⟨.list l, none, some (.arr v), none, none⟩ ∧
    preprocess look ⟨.list l, none, none, some (.arr v), none⟩ = .ok ⟨.list l, none, none, some (.arr v), none⟩ ∧
    preprocess look ⟨.list l, none, none, none, some (.arr v)⟩ = .ok ⟨.list l, none, none, none, some (.arr v)⟩ ∧
    preprocess look ⟨.list l, none, none, none, none⟩ = .error .required ∧
    (∀ w : Comp, preprocess look ⟨.list l, some (.arr v), some w, none, none⟩ = .error .multiple) ∧
    (∀ w : Comp, preprocess look ⟨.list l, some (.arr v), none, some w, none⟩ = .error .multiple) ∧
    (∀ w : Comp, preprocess look ⟨.list l, some (.arr v), none, none, some w⟩ = .error .multiple) ∧
    ∀ u : List ℝ, u.length ≠ l.length → preprocess look ⟨.list l, some (.arr u), none, none, none⟩ = .error .length := by
  obtain _ | ⟨s, _ | ⟨s', l⟩⟩ := l
  · simp at hl
  · simp at hl
  · have h1 : 1 < (s :: s' :: l).length := by simp
    refine ⟨?_, ?_, ?_, ?_, ?_, fun w => ?_, fun w => ?_, fun w => ?_, fun u hu => ?_⟩ <;>
      simp [preprocess, recognise, unpack, Comp.keys, Comp.values, Args.given] <;> simp at hv <;> first | assumption | simpa using hu

example : preprocess (fun _ => none) ⟨.list ["water", "ethanol"], some (.arr [1 / 2, 1 / 2]), none, none, none⟩
    = .ok ⟨.list ["water", "ethanol"], some (.arr [1 / 2, 1 / 2]), none, none, none⟩ :=
  (C110_list _ _ (by simp) _ (by simp)).1

/-- **C110.** A dictionary gives the identifiers with the fractions, in its order. -/
theorem C110_dict (look : Ids → Option (List String × List ℝ)) (d : List (String × ℝ)) :
    preprocess look ⟨.missing, some (.dict d), none, none, none⟩
      = .ok ⟨.list (d.map Prod.fst), some (.arr (d.map Prod.snd)), none, none, none⟩ ∧
    preprocess look ⟨.missing, none, some (.dict d), none, none⟩
      = .ok ⟨.list (d.map Prod.fst), none, some (.arr (d.map Prod.snd)), none, none⟩ ∧
    preprocess look ⟨.missing, none, none, some (.dict d), none⟩
      = .ok ⟨.list (d.map Prod.fst), none, none, some (.arr (d.map Prod.snd)), none⟩ ∧
    preprocess look ⟨.missing, none, none, none, some (.dict d)⟩
      = .ok ⟨.list (d.map Prod.fst), none, none, none, some (.arr (d.map Prod.snd))⟩ ∧
    (∀ v, preprocess look ⟨.missing, some (.arr v), none, none, none⟩ = .error .typeError) ∧
    preprocess look ⟨.missing, none, none, none, none⟩ = .error .required := by
  refine ⟨?_, ?_, ?_, ?_, fun v => ?_, ?_⟩ <;>
    simp [preprocess, recognise, unpack, Comp.keys, Comp.values, Args.given]

/-- **C110.** A name: of a mixture in the database, its components and mass fractions; of anything else, one pure component. One element in a list: the same, except that a
composition given is kept. -/
theorem C110_name (look : Ids → Option (List String × List ℝ)) (s : String) :
    (∀ m, m.1.length = m.2.length → look (.str s) = some m →
      preprocess look ⟨.str s, none, none, none, none⟩ = .ok ⟨.list m.1, none, some (.arr m.2), none, none⟩) ∧
    (∀ m, m.1.length = m.2.length → look (.list [s]) = some m →
      preprocess look ⟨.list [s], none, none, none, none⟩ = .ok ⟨.list m.1, none, some (.arr m.2), none, none⟩) ∧
    (look (.str s) = none →
      preprocess look ⟨.str s, none, none, none, none⟩ = .ok ⟨.list [s], some (.arr [1]), none, none, none⟩) ∧
    (look (.list [s]) = none →
      preprocess look ⟨.list [s], none, none, none, none⟩ = .ok ⟨.list [s], some (.arr [1]), none, none, none⟩) ∧
    ∀ v : ℝ, look (.list [s]) = none →
      preprocess look ⟨.list [s], none, some (.arr [v]), none, none⟩ = .ok ⟨.list [s], none, some (.arr [v]), none, none⟩ := by
  refine ⟨fun m hm h => ?_, fun m hm h => ?_, fun h => ?_, fun h => ?_, fun v h => ?_⟩ <;>
    simp [preprocess, recognise, unpack, Comp.keys, Comp.values, Args.given, h]
  · exact hm.symm
  · exact hm.symm

/-- A database with one mixture. -/
noncomputable def demoLook : Ids → Option (List String × List ℝ)
  | .str "air" => some (["nitrogen", "oxygen"], [3 / 4, 1 / 4])
  | .list ["air"] => some (["nitrogen", "oxygen"], [3 / 4, 1 / 4])
  | _ => none

example : preprocess demoLook ⟨.str "air", none, none, none, none⟩
    = .ok ⟨.list ["nitrogen", "oxygen"], none, some (.arr [3 / 4, 1 / 4]), none, none⟩ :=
  (C110_name demoLook "air").1 _ (by simp) rfl

/-- **C110 fails.** Contradicting arguments are accepted: the keys of a dictionary replace identifiers given beside it; with one component further compositions of any length pass, and a
name replaces the mole fractions. -/
theorem C110_contradiction_fails :
    preprocess demoLook ⟨.list ["water", "ethanol"], some (.dict [("methane", 1 / 2), ("ethane", 1 / 2)]), none, none, none⟩
      = .ok ⟨.list ["methane", "ethane"], some (.arr [1 / 2, 1 / 2]), none, none, none⟩ ∧
    preprocess demoLook ⟨.list ["water"], some (.arr [1]), some (.arr [1 / 2, 1 / 2]), none, none⟩
      = .ok ⟨.list ["water"], some (.arr [1]), some (.arr [1 / 2, 1 / 2]), none, none⟩ ∧
    preprocess demoLook ⟨.str "water", some (.arr [1 / 2, 1 / 2]), none, none, none⟩
      = .ok ⟨.list ["water"], some (.arr [1]), none, none, none⟩ := by
  refine ⟨?_, ?_, ?_⟩ <;>
    simp [preprocess, recognise, unpack, Comp.keys, Comp.values, Args.given, demoLook]

/-! ## Theorems: composition -/

section
variable {N : ℕ}

theorem norm_eq (z : Fin N → ℝ) : norm z = fun i => z i / ∑ j, z j := by
  unfold norm
  split_ifs with h
  · simp [h]
  · rfl

theorem toMole_scale (V f : Fin N → ℝ) {c : ℝ} (hc : c ≠ 0) : toMole V (fun i => f i / c) = toMole V f := by
  funext i
  unfold toMole
  have : ∑ j, f j / c / V j = (∑ j, f j / V j) / c := by
    rw [sum_div]
    exact sum_congr rfl fun j _ => by ring
  rw [this]
  rw [div_right_comm (f i), div_div_div_cancel_right₀ hc]

theorem toMass_scale (V f : Fin N → ℝ) {c : ℝ} (hc : c ≠ 0) : toMass V (fun i => f i / c) = toMass V f := by
  funext i
  unfold toMass
  have : ∑ j, f j / c * V j = (∑ j, f j * V j) / c := by
    rw [sum_div]
    exact sum_congr rfl fun j _ => by ring
  rw [this, div_mul_eq_mul_div, div_div_div_cancel_right₀ hc]

theorem sum_pos_of (z V : Fin N → ℝ) (hz : ∀ i, 0 ≤ z i) (hs : 0 < ∑ i, z i) (hV : ∀ i, 0 < V i) : 0 < ∑ i, z i * V i := by
  obtain ⟨i, -, hi⟩ := exists_lt_of_sum_lt (s := univ) (f := fun _ : Fin N => (0 : ℝ)) (by simpa using hs)
  exact sum_pos' (fun j _ => mul_nonneg (hz j) (hV j).le) ⟨i, mem_univ i, mul_pos hi (hV i)⟩

theorem toMole_toMass (V z : Fin N → ℝ) (hz : ∀ i, 0 ≤ z i) (hs : 0 < ∑ i, z i) (hV : ∀ i, 0 < V i) :
    toMole V (toMass V z) = norm z := by
  have h := sum_pos_of z V hz hs hV
  have h1 : toMass V z = fun i => z i * V i / ∑ j, z j * V j := rfl
  rw [h1, toMole_scale _ _ h.ne', norm_eq]
  funext i
  unfold toMole
  have : ∀ j, z j * V j / V j = z j := fun j => mul_div_cancel_right₀ _ (hV j).ne'
  simp only [this]

theorem toMass_toMole (V w : Fin N → ℝ) (hw : ∀ i, 0 ≤ w i) (hs : 0 < ∑ i, w i) (hV : ∀ i, 0 < V i) :
    toMass V (toMole V w) = norm w := by
  have h : 0 < ∑ i, w i / V i := by
    simpa [div_eq_mul_inv] using sum_pos_of w (fun i => (V i)⁻¹) hw hs (fun i => inv_pos.mpr (hV i))
  have h1 : toMole V w = fun i => w i / V i / ∑ j, w j / V j := rfl
  rw [h1, toMass_scale _ _ h.ne', norm_eq]
  funext i
  unfold toMass
  have : ∀ j, w j / V j * V j = w j := fun j => div_mul_cancel₀ _ (hV j).ne'
  simp only [this]

theorem norm_sum (z : Fin N → ℝ) (hs : 0 < ∑ i, z i) : ∑ i, norm z i = 1 := by
  rw [norm_eq, ← sum_div, div_self hs.ne']

theorem toMole_sum (V w : Fin N → ℝ) (hw : ∀ i, 0 ≤ w i) (hs : 0 < ∑ i, w i) (hV : ∀ i, 0 < V i) : ∑ i, toMole V w i = 1 := by
  have h : 0 < ∑ i, w i / V i := by
    simpa [div_eq_mul_inv] using sum_pos_of w (fun i => (V i)⁻¹) hw hs (fun i => inv_pos.mpr (hV i))
  unfold toMole
  rw [← sum_div, div_self h.ne']

theorem toMass_sum (V z : Fin N → ℝ) (hz : ∀ i, 0 ≤ z i) (hs : 0 < ∑ i, z i) (hV : ∀ i, 0 < V i) : ∑ i, toMass V z i = 1 := by
  unfold toMass
  rw [← sum_div, div_self (sum_pos_of z V hz hs hV).ne']

theorem norm_nonneg' (z : Fin N → ℝ) (hz : ∀ i, 0 ≤ z i) (i : Fin N) : 0 ≤ norm z i := by
  rw [norm_eq]
  exact div_nonneg (hz i) (sum_nonneg fun j _ => hz j)

theorem toMole_nonneg (V w : Fin N → ℝ) (hw : ∀ i, 0 ≤ w i) (hV : ∀ i, 0 < V i) (i : Fin N) : 0 ≤ toMole V w i :=
  div_nonneg (div_nonneg (hw i) (hV i).le) (sum_nonneg fun j _ => div_nonneg (hw j) (hV j).le)

/-- **C110.** From mole fractions of any positive sum: mole and mass fractions of sum one, in the proportions given and consistent with each other. -/
theorem C110_of_mole (MW z : Fin N → ℝ) (hz : ∀ i, 0 ≤ z i) (hs : 0 < ∑ i, z i) (hM : ∀ i, 0 < MW i) :
    ∑ i, (ofMole MW z).1 i = 1 ∧ ∑ i, (ofMole MW z).2 i = 1 ∧
    (∀ i j, (ofMole MW z).1 i * z j = (ofMole MW z).1 j * z i) ∧
    ∀ i j, (ofMole MW z).2 i * ((ofMole MW z).1 j * MW j) = (ofMole MW z).2 j * ((ofMole MW z).1 i * MW i) := by
  refine ⟨norm_sum z hs, toMass_sum MW z hz hs hM, fun i j => ?_, fun i j => ?_⟩
  · simp only [ofMole, norm_eq]
    ring
  · simp only [ofMole, norm_eq, toMass]
    ring

/-- **C110.** From mass fractions. -/
theorem C110_of_mass (MW w : Fin N → ℝ) (hw : ∀ i, 0 ≤ w i) (hs : 0 < ∑ i, w i) (hM : ∀ i, 0 < MW i) :
    ∑ i, (ofMass MW w).1 i = 1 ∧ ∑ i, (ofMass MW w).2 i = 1 ∧
    (∀ i j, (ofMass MW w).2 i * w j = (ofMass MW w).2 j * w i) ∧
    ∀ i j, (ofMass MW w).2 i * ((ofMass MW w).1 j * MW j) = (ofMass MW w).2 j * ((ofMass MW w).1 i * MW i) := by
  refine ⟨toMole_sum MW w hw hs hM, norm_sum w hs, fun i j => ?_, fun i j => ?_⟩
  · simp only [ofMass, norm_eq]
    ring
  · simp only [ofMass, norm_eq, toMole]
    have hi := (hM i).ne'
    have hj := (hM j).ne'
    field_simp

/-- **C110.** A mixture rebuilt from the mass fractions of one given by mole fractions is the same, and conversely. -/
theorem C110_round_trip (MW z : Fin N → ℝ) (hz : ∀ i, 0 ≤ z i) (hs : 0 < ∑ i, z i) (hM : ∀ i, 0 < MW i) :
    ofMass MW (ofMole MW z).2 = ofMole MW z ∧ ofMole MW (ofMass MW z).1 = ofMass MW z := by
  constructor
  · refine Prod.ext ?_ ?_
    · exact toMole_toMass MW z hz hs hM
    · change norm (toMass MW z) = toMass MW z
      rw [norm_eq, toMass_sum MW z hz hs hM]
      simp
  · refine Prod.ext ?_ ?_
    · change norm (toMole MW z) = toMole MW z
      rw [norm_eq, toMole_sum MW z hz hs hM]
      simp
    · exact toMass_toMole MW z hz hs hM

example : ofMass ![2, 32] (ofMole ![2, 32] ![2, 1]).2 = ofMole ![2, 32] ![2, 1] ∧ (ofMole ![2, 32] ![2, 1]).1 0 = 2 / 3 ∧
    (ofMole ![2, 32] ![2, 1]).2 0 = 1 / 9 := by
  refine ⟨(C110_round_trip _ _ (fun i => by fin_cases i <;> norm_num) (by norm_num [Fin.sum_univ_two])
    (fun i => by fin_cases i <;> norm_num)).1, ?_, ?_⟩
  · norm_num [ofMole, norm_eq, Fin.sum_univ_two]
  · norm_num [ofMole, toMass, Fin.sum_univ_two]

/-- **C110.** From volume fractions: the volume fractions of the result are those given, scaled to one, at the temperature and pressure of the volumes; the
volumes are those at `Vf_TP` where given and otherwise at the mixture's temperature and pressure or the defaults, whichever of lines 613 and 621 sets them. -/
theorem C110_of_volume (MW f : Fin N → ℝ) (v : Fin N → ℝ → ℝ → ℝ) (T P Tvf Pvf : Option ℝ) (hf : ∀ i, 0 ≤ f i) (hs : 0 < ∑ i, f i)
    (hM : ∀ i, 0 < MW i) (hv : ∀ i t p, 0 < v i t p) :
    let t := Tvf.getD (T.getD 298.15)
    let p := Pvf.getD (P.getD 101325)
    let r := ofVolume MW (vfVolumes v T P Tvf Pvf) f
    ∑ i, r.1 i = 1 ∧ ∑ i, r.2 i = 1 ∧ (∀ i j, r.1 i * v i t p * f j = r.1 j * v j t p * f i) ∧
    ∀ i, Vfls v r.1 t p none none i = f i / ∑ j, f j := by
  intro t p r
  have hV : vfVolumes v T P Tvf Pvf = fun i => v i t p := by
    unfold vfVolumes
    dsimp only
    split_ifs with h
    · rfl
    · push Not at h
      obtain ⟨h1, h2⟩ := h
      rw [← h1, ← h2]
      rfl
  have hr : r = ofVolume MW (fun i => v i t p) f := by
    change ofVolume MW (vfVolumes v T P Tvf Pvf) f = _
    rw [hV]
  have hn := norm_nonneg' f hf
  have hns : 0 < ∑ i, norm f i := by
    rw [norm_sum f hs]
    norm_num
  have hp : ∀ i, 0 < v i t p := fun i => hv i t p
  have h1 : r.1 = toMole (fun i => v i t p) (norm f) := by rw [hr]; rfl
  have h2 : r.2 = toMass MW (toMole (fun i => v i t p) (norm f)) := by rw [hr]; rfl
  have hms := toMole_sum (fun i => v i t p) (norm f) hn hns hp
  refine ⟨?_, ?_, fun i j => ?_, fun i => ?_⟩
  · rw [h1]
    exact hms
  · rw [h2]
    exact toMass_sum _ _ (toMole_nonneg _ _ hn hp) (by rw [hms]; norm_num) hM
  · rw [h1]
    simp only [toMole, norm_eq]
    have hi := (hp i).ne'
    have hj := (hp j).ne'
    field_simp
  · rw [h1]
    unfold Vfls
    rw [if_pos ⟨Or.inl rfl, Or.inl rfl⟩, toMass_toMole _ _ hn hns hp, norm_eq (norm f), norm_sum f hs]
    dsimp only
    rw [div_one, norm_eq]

example : ∑ i, (ofVolume ![18, 46] (vfVolumes (fun i t _ => ![1, 3] i + t ^ 2) (some 300) none none none) ![2, 3]).1 i = 1 :=
  (C110_of_volume ![18, 46] ![2, 3] (fun i t _ => ![1, 3] i + t ^ 2) (some 300) none none none (fun i => by fin_cases i <;> norm_num)
    (by norm_num [Fin.sum_univ_two]) (fun i => by fin_cases i <;> norm_num) (fun i t _ => by fin_cases i <;> simp <;> positivity)).1

/-- **C110.** `Vfls(T, P)` takes the mixture's own temperature and pressure where none are given, and sums to one. -/
theorem C110_Vfls (v : Fin N → ℝ → ℝ → ℝ) (z : Fin N → ℝ) (T P : ℝ) (T' P' : Option ℝ) :
    Vfls v z T P T' P' = (fun i => z i * v i (T'.getD T) (P'.getD P) / ∑ j, z j * v j (T'.getD T) (P'.getD P)) := by
  unfold Vfls
  split_ifs with h
  · obtain ⟨h1, h2⟩ := h
    rcases h1 with rfl | rfl <;> rcases h2 with rfl | rfl <;> rfl
  · rfl

end

/-! ## Theorems: flash -/

section
variable {N : ℕ}

theorem mix_lin (V : ℝ) (x y p : Fin N → ℝ) : mix (fun i => V * y i + (1 - V) * x i) p = V * mix y p + (1 - V) * mix x p := by
  unfold mix
  rw [mul_sum, mul_sum, ← sum_add_distrib]
  exact sum_congr rfl fun i _ => by ring

/-- **C110.** Two phases whose amounts balance: the stored `MWl`, `MWg` average to the molecular weight with the vapor fraction, the quality is the mass fraction of vapor, and
mass fractions of the phases average to those of the mixture with the quality. -/
theorem C110_two_phase (MWs z : Fin N → ℝ) (pkg) (q : Spec) (s : St N) (o : Out N) (x y : Fin N → ℝ)
    (ho : ∀ H S, pkg q.T q.P q.VF H S = some o) (hx : o.xs = some x) (hy : o.ys = some y)
    (hz : z = fun i => o.VF * y i + (1 - o.VF) * x i) (h0 : 0 ≤ o.VF) (h1 : o.VF ≤ 1)
    (hM : ∀ i, 0 < MWs i) (hx0 : ∀ i, 0 ≤ x i) (hy0 : ∀ i, 0 ≤ y i) (hxs : 0 < ∑ i, x i) (hys : 0 < ∑ i, y i) :
    ∃ MWl MWg Q wl wg, (flash MWs z pkg q s).MWl = some MWl ∧ (flash MWs z pkg q s).MWg = some MWg ∧
      (flash MWs z pkg q s).x = some Q ∧ (flash MWs z pkg q s).wsl = some wl ∧ (flash MWs z pkg q s).wsg = some wg ∧
      MWl = ∑ i, x i * MWs i ∧ MWg = ∑ i, y i * MWs i ∧
      ∑ i, z i * MWs i = o.VF * MWg + (1 - o.VF) * MWl ∧ 0 < ∑ i, z i * MWs i ∧
      Q * ∑ i, z i * MWs i = o.VF * MWg ∧ 0 ≤ Q ∧ Q ≤ 1 ∧
      ∀ i, toMass MWs z i = Q * wg i + (1 - Q) * wl i := by
  have hl : 0 < mix x MWs := sum_pos_of x MWs hx0 hxs hM
  have hg : 0 < mix y MWs := sum_pos_of y MWs hy0 hys hM
  have hm : mix z MWs = o.VF * mix y MWs + (1 - o.VF) * mix x MWs := by rw [hz, mix_lin]
  have hp : 0 < o.VF * mix y MWs + (1 - o.VF) * mix x MWs := by
    rcases eq_or_lt_of_le h0 with h | h
    · rw [← h]
      simpa using hl
    · have := mul_pos h hg
      have := mul_nonneg (sub_nonneg.mpr h1) hl.le
      linarith
  refine ⟨mix x MWs, mix y MWs, massQuality o.VF (mix x MWs) (mix y MWs), toMass MWs x, toMass MWs y, ?_, ?_, ?_, ?_, ?_, rfl, rfl, hm, ?_, ?_, ?_, ?_,
    fun i => ?_⟩
  · simp [flash, ho, hx]
  · simp [flash, ho, hy]
  · simp [flash, ho, hx, hy]
  · simp [flash, ho, hx]
  · simp [flash, ho, hy]
  · change 0 < mix z MWs
    rw [hm]
    exact hp
  · change massQuality _ _ _ * mix z MWs = _
    rw [hm, massQuality, div_mul_cancel₀ _ hp.ne']
  · exact div_nonneg (mul_nonneg h0 hg.le) hp.le
  · rw [massQuality, div_le_one hp]
    have := mul_nonneg (sub_nonneg.mpr h1) hl.le
    linarith
  · have e : toMass MWs z i = z i * MWs i / mix z MWs := rfl
    have e1 : toMass MWs x i = x i * MWs i / mix x MWs := rfl
    have e2 : toMass MWs y i = y i * MWs i / mix y MWs := rfl
    rw [e, e1, e2, hm, hz, massQuality]
    generalize mix x MWs = a at hl hp ⊢
    generalize mix y MWs = b at hg hp ⊢
    have ha := hl.ne'
    have hb := hg.ne'
    have hc := hp.ne'
    have : 1 - o.VF * b / (o.VF * b + (1 - o.VF) * a) = (1 - o.VF) * a / (o.VF * b + (1 - o.VF) * a) := by
      rw [eq_div_iff hc, sub_mul, div_mul_cancel₀ _ hc]
      ring
    rw [this]
    dsimp only
    generalize o.VF * b + (1 - o.VF) * a = D at hc ⊢
    field_simp

/-- A package that finds equal amounts of liquid and gas, molecular weights two and six. -/
noncomputable def demoPkg (_T _P _VF _Hm _Sm : Option ℝ) : Option (Out 2) :=
  some ⟨300, 101325, 1 / 2, 5, 7, -2095, some ![1, 0], some ![0, 1], .lg⟩

/-- Nothing known yet. -/
def blank : St N := ⟨none, none, none, none, none, none, none, none, none, none, none, none, none, none, none, none, none, none⟩

example : ∃ Q, (flash ![2, 6] ![1 / 2, 1 / 2] demoPkg ⟨some 300, some 101325, none, none, none, none, none⟩ blank).x = some Q ∧ Q = 3 / 4 := by
  obtain ⟨a, b, Q, _, _, _, _, hQ, _, _, ha, hb, _, _, h, _⟩ :=
    C110_two_phase ![2, 6] ![1 / 2, 1 / 2] demoPkg ⟨some 300, some 101325, none, none, none, none, none⟩ blank _ ![1, 0] ![0, 1]
    (fun _ _ => rfl) rfl rfl (by funext i; fin_cases i <;> norm_num) (by norm_num) (by norm_num)
    (fun i => by fin_cases i <;> norm_num) (fun i => by fin_cases i <;> norm_num) (fun i => by fin_cases i <;> norm_num)
    (by norm_num [Fin.sum_univ_two]) (by norm_num [Fin.sum_univ_two])
  refine ⟨Q, hQ, ?_⟩
  rw [hb] at h
  norm_num [Fin.sum_univ_two] at h
  linarith

/-- **C110.** After a flash that succeeds: temperature, pressure, fraction, compositions, phase and molar properties are those of the package; `VF` and `V_over_F` agree; mass properties
are the molar ones per mass. -/
theorem C110_flash (MWs z : Fin N → ℝ) (pkg) (q : Spec) (s : St N) (o : Out N)
    (ho : ∀ H S, pkg q.T q.P q.VF H S = some o) (hM : 0 < ∑ i, z i * MWs i) :
    let r := flash MWs z pkg q s
    r.T = some o.T ∧ r.P = some o.P ∧ r.VF = some o.VF ∧ r.V_over_F = some o.VF ∧ r.xs = o.xs ∧ r.ys = o.ys ∧
    r.phase = some o.phase ∧ r.Hm = some o.Hm ∧ r.Sm = some o.Sm ∧ r.Gm = some o.Gm ∧
    (∃ h, r.H = some h ∧ h * (∑ i, z i * MWs i) = 1000 * o.Hm) ∧ (∃ h, r.S = some h ∧ h * (∑ i, z i * MWs i) = 1000 * o.Sm) ∧
    ∃ h, r.G = some h ∧ h * (∑ i, z i * MWs i) = 1000 * o.Gm := by
  have hM' : 0 < mix z MWs := hM
  have key : ∀ a, toPerMass a (mix z MWs) * ∑ i, z i * MWs i = 1000 * a := by
    intro a
    change toPerMass a (mix z MWs) * mix z MWs = _
    rw [toPerMass, div_mul_cancel₀ _ hM'.ne']
    ring
  intro r
  have hr : r = flash MWs z pkg q s := rfl
  simp only [flash, ho] at hr
  rw [hr]
  exact ⟨rfl, rfl, rfl, rfl, rfl, rfl, rfl, rfl, rfl, rfl, ⟨_, rfl, key _⟩, ⟨_, rfl, key _⟩, ⟨_, rfl, key _⟩⟩

example : ∃ h, (flash ![2, 6] ![1 / 2, 1 / 2] demoPkg ⟨some 300, some 101325, none, none, none, none, none⟩ blank).H = some h ∧ h * 4 = 1000 * 5 := by
  obtain ⟨h, h1, h2⟩ := (C110_flash ![2, 6] ![1 / 2, 1 / 2] demoPkg ⟨some 300, some 101325, none, none, none, none, none⟩ blank _ (fun _ _ => rfl)
    (by norm_num [Fin.sum_univ_two])).2.2.2.2.2.2.2.2.2.2.1
  refine ⟨h, h1, ?_⟩
  norm_num [Fin.sum_univ_two] at h2
  linarith

/-- **C110.** Specified by enthalpy and entropy per mass, a package that meets the molar specification it is given leaves the values that were asked for. -/
theorem C110_per_mass (MWs z : Fin N → ℝ) (pkg) (q : Spec) (s : St N) (hM : 0 < ∑ i, z i * MWs i) (h e : ℝ)
    (hq : q.H = some h) (hs : q.S = some e)
    (hok : ∀ a b, ∃ o, pkg q.T q.P q.VF (some a) (some b) = some o ∧ o.Hm = a ∧ o.Sm = b) :
    (flash MWs z pkg q s).H = some h ∧ (flash MWs z pkg q s).S = some e := by
  have hM' : mix z MWs ≠ 0 := ne_of_gt hM
  obtain ⟨o, ho, h1, h2⟩ := hok (toPerMole h (mix z MWs)) (toPerMole e (mix z MWs))
  have key : ∀ a, toPerMass (toPerMole a (mix z MWs)) (mix z MWs) = a := by
    intro a
    unfold toPerMass toPerMole
    field_simp
  constructor
  · simp only [flash, hq, hs, ho]
    rw [h1, key]
  · simp only [flash, hq, hs, ho]
    rw [h2, key]

example : (flash ![2, 6] ![1 / 2, 1 / 2] (fun _ _ _ H S => some ⟨300, 101325, 1 / 2, H.getD 0, S.getD 0, 0, some ![1, 0], some ![0, 1], .lg⟩)
    ⟨none, none, none, none, none, some 1000, some 3⟩ blank).H = some 1000 :=
  (C110_per_mass _ _ _ _ _ (by norm_num [Fin.sum_univ_two]) 1000 3 rfl rfl (fun _ _ => ⟨_, rfl, rfl, rfl⟩)).1

/-- **C110.** One phase: it stands in for the missing one in molecular weight and mass fractions, and the quality is one for a gas, zero for a liquid. -/
theorem C110_one_phase (MWs z : Fin N → ℝ) (pkg) (q : Spec) (s : St N) (o : Out N) (w : Fin N → ℝ)
    (ho : ∀ H S, pkg q.T q.P q.VF H S = some o)
    (h : o.xs = some w ∧ o.ys = none ∧ o.phase = .l ∨ o.xs = none ∧ o.ys = some w ∧ o.phase = .g) :
    let r := flash MWs z pkg q s
    r.MWl = some (∑ i, w i * MWs i) ∧ r.MWg = some (∑ i, w i * MWs i) ∧ r.wsl = some (toMass MWs w) ∧ r.wsg = some (toMass MWs w) ∧
    r.x = some (if o.phase = .g then 1 else 0) ∧ (r.xs = none ∨ r.ys = none) := by
  rcases h with ⟨h1, h2, h3⟩ | ⟨h1, h2, h3⟩ <;> simp [flash, ho, h1, h2, h3, mix]

example : (flash ![2, 6] ![1 / 2, 1 / 2] (fun _ _ _ _ _ => some ⟨300, 101325, 1, 5, 7, -2095, none, some ![1 / 2, 1 / 2], .g⟩)
    ⟨some 300, some 101325, none, none, none, none, none⟩ blank).x = some 1 := by
  have := (C110_one_phase ![2, 6] ![1 / 2, 1 / 2] (fun _ _ _ _ _ => some ⟨300, 101325, 1, 5, 7, -2095, none, some ![1 / 2, 1 / 2], .g⟩)
    ⟨some 300, some 101325, none, none, none, none, none⟩ blank _ _ (fun _ _ => rfl) (Or.inr ⟨rfl, rfl, rfl⟩)).2.2.2.2.1
  simpa using this

/-- **C110 (partial).** After a flash that fails the seven attributes are the arguments (the molar ones converted), and all others are as before. Missing: that
what stays belongs to the new state; see `C110_failed_fails`. -/
theorem C110_failed_partial (MWs z : Fin N → ℝ) (pkg) (q : Spec) (s : St N) (ho : ∀ H S, pkg q.T q.P q.VF H S = none) :
    let r := flash MWs z pkg q s
    r.T = q.T ∧ r.P = q.P ∧ r.VF = q.VF ∧ r.H = q.H ∧ r.S = q.S ∧
    r.V_over_F = s.V_over_F ∧ r.phase = s.phase ∧ r.xs = s.xs ∧ r.ys = s.ys ∧ r.x = s.x ∧ r.Gm = s.Gm ∧ r.G = s.G ∧ r.MWl = s.MWl ∧ r.MWg = s.MWg := by
  intro r
  have hr : r = flash MWs z pkg q s := rfl
  simp only [flash, ho] at hr
  rw [hr]
  exact ⟨rfl, rfl, rfl, rfl, rfl, rfl, rfl, rfl, rfl, rfl, rfl, rfl, rfl, rfl⟩

/-- **C110 fails.** "Still want to set what variables that can be set": the test is on the name of the variable, not its value, so a failed flash at given pressure and enthalpy erases the
temperature, while phase, compositions, quality and `V_over_F` of the earlier flash remain. -/
theorem C110_failed_fails :
    ∃ (s : St 2) (pkg : Option ℝ → Option ℝ → Option ℝ → Option ℝ → Option ℝ → Option (Out 2)),
      s.T = some 300 ∧
      (let r := flash ![2, 6] ![1 / 2, 1 / 2] pkg ⟨none, some 101325, none, some 8000, none, none, none⟩ s
       r.T = none ∧ r.VF = none ∧ r.V_over_F = some (1 / 2) ∧ r.phase = some .lg ∧ r.xs = some ![1, 0] ∧ r.Gm = some (-2095)) := by
  refine ⟨flash ![2, 6] ![1 / 2, 1 / 2] demoPkg ⟨some 300, some 101325, none, none, none, none, none⟩ blank, fun _ _ _ _ _ => none, rfl,
    rfl, rfl, rfl, rfl, rfl, rfl⟩

end

/-! ## Theorems: equation of state -/

theorem assign_last {E : Type} (box : Option E) (log : List (ℕ × E)) :
    assign box log = match log.getLast? with | some a => some a.2 | none => box := by
  induction log using List.reverseRecOn generalizing box with
  | nil => rfl
  | append_singleton l a _ => simp [assign]

/-- **C110 (partial).** An equation of state assigned to a mixture is read back from it as long as none is assigned to any mixture afterwards. Missing: that
assignments to other mixtures do not matter; see `C110_eos_fails`. -/
theorem C110_eos_partial {E : Type} (box : Option E) (log : List (ℕ × E)) (i : ℕ) (e : E) :
    readEos (assign box (log ++ [(i, e)])) i = some e := by
  simp [readEos, assign_last]

/-- **C110 fails.** The list is an attribute of the class: every mixture reads the equation of state that was last assigned to any of them. -/
theorem C110_eos_fails {E : Type} (box : Option E) (log : List (ℕ × E)) (i j k : ℕ) (e f : E) (_hij : i ≠ j) (hef : e ≠ f) :
    readEos (assign box (log ++ [(i, e), (j, f)])) k = some f ∧ readEos (assign box (log ++ [(i, e), (j, f)])) i ≠ some e := by
  have h : assign box (log ++ [(i, e), (j, f)]) = some f := by
    rw [assign_last]
    simp
  simp only [readEos, h]
  exact ⟨trivial, fun h => hef (Option.some.inj h).symm⟩

example : readEos (assign none [(0, "PR of methane"), (1, "SRK of water")]) 0 = some "SRK of water" := rfl

/-! ## Theorems: properties -/

/-- **C110.** The density of two phases is the mass over the volume: with the quality as mass fraction of vapor, molecular weight over molar volume. -/
theorem C110_rho (VF MWl MWg Vl Vg : ℝ) (h0 : 0 ≤ VF) (h1 : VF ≤ 1) (hl : 0 < MWl) (hg : 0 < MWg) (hVl : 0 < Vl) (hVg : 0 < Vg) :
    blend (massQuality VF MWl MWg) (toRho Vl MWl) (toRho Vg MWg)
      = (VF * MWg + (1 - VF) * MWl) / 1000 / (VF * Vg + (1 - VF) * Vl) := by
  have h1' := sub_nonneg.mpr h1
  have hM : 0 < VF * MWg + (1 - VF) * MWl := by
    rcases eq_or_lt_of_le h0 with h | h
    · rw [← h]; simpa using hl
    · have := mul_pos h hg; have := mul_nonneg h1' hl.le; linarith
  have hV : 0 < VF * Vg + (1 - VF) * Vl := by
    rcases eq_or_lt_of_le h0 with h | h
    · rw [← h]; simpa using hVl
    · have := mul_pos h hVg; have := mul_nonneg h1' hVl.le; linarith
  have e1 : (1 - massQuality VF MWl MWg) / toRho Vl MWl = (1 - VF) * Vl * 1000 / (VF * MWg + (1 - VF) * MWl) := by
    unfold massQuality toRho
    have : 1 - VF * MWg / (VF * MWg + (1 - VF) * MWl) = (1 - VF) * MWl / (VF * MWg + (1 - VF) * MWl) := by
      rw [eq_div_iff hM.ne', sub_mul, div_mul_cancel₀ _ hM.ne']
      ring
    rw [this]
    generalize VF * MWg + (1 - VF) * MWl = D at hM ⊢
    have := hM.ne'
    field_simp
  have e2 : massQuality VF MWl MWg / toRho Vg MWg = VF * Vg * 1000 / (VF * MWg + (1 - VF) * MWl) := by
    unfold massQuality toRho
    generalize VF * MWg + (1 - VF) * MWl = D at hM ⊢
    have := hM.ne'
    field_simp
  unfold blend
  dsimp only
  rw [e1, e2]
  unfold toRho
  have hs : (1 - VF) * Vl * 1000 / (VF * MWg + (1 - VF) * MWl) + VF * Vg * 1000 / (VF * MWg + (1 - VF) * MWl)
      = (VF * Vg + (1 - VF) * Vl) * 1000 / (VF * MWg + (1 - VF) * MWl) := by ring
  rw [hs]
  generalize hD : VF * MWg + (1 - VF) * MWl = D at hM ⊢
  generalize hW : VF * Vg + (1 - VF) * Vl = W at hV ⊢
  have := hM.ne'
  have := hV.ne'
  field_simp
  rw [← hD]
  ring

example : blend (massQuality (1 / 2) 2 6) (toRho 1 2) (toRho 10 6) = 1 / 1375 := by
  rw [C110_rho _ _ _ _ _ (by norm_num) (by norm_num) (by norm_num) (by norm_num) (by norm_num) (by norm_num)]
  norm_num

/-- **C110.** The molar density of two phases (2939-2943) is one over the molar volume exactly if one of the phases is absent, or the phases have equal molecular weights or volumes: it
is averaged with the mass fraction of vapor. -/
theorem C110_rhom (VF MWl MWg Vl Vg : ℝ) (h0 : 0 ≤ VF) (h1 : VF ≤ 1) (hl : 0 < MWl) (hg : 0 < MWg) (hVl : 0 < Vl) (hVg : 0 < Vg) :
    blend (massQuality VF MWl MWg) (1 / Vl) (1 / Vg) = 1 / (VF * Vg + (1 - VF) * Vl) ↔
      VF = 0 ∨ VF = 1 ∨ MWl = MWg ∨ Vl = Vg := by
  have h1' := sub_nonneg.mpr h1
  have hM : 0 < VF * MWg + (1 - VF) * MWl := by
    rcases eq_or_lt_of_le h0 with h | h
    · rw [← h]; simpa using hl
    · have := mul_pos h hg; have := mul_nonneg h1' hl.le; linarith
  have hV : 0 < VF * Vg + (1 - VF) * Vl := by
    rcases eq_or_lt_of_le h0 with h | h
    · rw [← h]; simpa using hVl
    · have := mul_pos h hVg; have := mul_nonneg h1' hVl.le; linarith
  have hU : 0 < VF * MWg * Vg + (1 - VF) * MWl * Vl := by
    rcases eq_or_lt_of_le h0 with h | h
    · rw [← h]; simpa using mul_pos hl hVl
    · have := mul_pos (mul_pos h hg) hVg; have := mul_nonneg (mul_nonneg h1' hl.le) hVl.le; linarith
  have e : blend (massQuality VF MWl MWg) (1 / Vl) (1 / Vg) = (VF * MWg + (1 - VF) * MWl) / (VF * MWg * Vg + (1 - VF) * MWl * Vl) := by
    unfold blend massQuality
    dsimp only
    have : 1 - VF * MWg / (VF * MWg + (1 - VF) * MWl) = (1 - VF) * MWl / (VF * MWg + (1 - VF) * MWl) := by
      rw [eq_div_iff hM.ne', sub_mul, div_mul_cancel₀ _ hM.ne']
      ring
    rw [this]
    have hs : (1 - VF) * MWl / (VF * MWg + (1 - VF) * MWl) / (1 / Vl) + VF * MWg / (VF * MWg + (1 - VF) * MWl) / (1 / Vg)
        = (VF * MWg * Vg + (1 - VF) * MWl * Vl) / (VF * MWg + (1 - VF) * MWl) := by
      field_simp
      ring
    rw [hs]
    generalize hD : VF * MWg + (1 - VF) * MWl = D at hM ⊢
    generalize hW : VF * MWg * Vg + (1 - VF) * MWl * Vl = W at hU ⊢
    have := hM.ne'
    have := hU.ne'
    field_simp
    rw [← hD]
    ring
  rw [e, div_eq_div_iff hU.ne' hV.ne']
  constructor
  · intro h
    have : VF * ((1 - VF) * ((MWl - MWg) * (Vl - Vg))) = 0 := by linear_combination -h
    rcases mul_eq_zero.mp this with h | h
    · exact Or.inl h
    · rcases mul_eq_zero.mp h with h | h
      · exact Or.inr (Or.inl (by linarith))
      · rcases mul_eq_zero.mp h with h | h
        · exact Or.inr (Or.inr (Or.inl (by linarith)))
        · exact Or.inr (Or.inr (Or.inr (by linarith)))
  · rintro (rfl | rfl | rfl | rfl) <;> ring

/-- **C110 fails.** So `rhom` is not one over the molar volume, nor `rho` over the molecular weight: a liquid of molecular weight 2 and a gas of 6, half and half. -/
theorem C110_rhom_fails :
    ∃ VF MWl MWg Vl Vg : ℝ, 0 ≤ VF ∧ VF ≤ 1 ∧ 0 < MWl ∧ 0 < MWg ∧ 0 < Vl ∧ 0 < Vg ∧
      blend (massQuality VF MWl MWg) (1 / Vl) (1 / Vg) ≠ 1 / (VF * Vg + (1 - VF) * Vl) ∧
      blend (massQuality VF MWl MWg) (1 / Vl) (1 / Vg) * ((VF * MWg + (1 - VF) * MWl) / 1000)
        ≠ blend (massQuality VF MWl MWg) (toRho Vl MWl) (toRho Vg MWg) := by
  refine ⟨1 / 2, 2, 6, 1, 10, by norm_num, by norm_num, by norm_num, by norm_num, by norm_num, by norm_num, ?_, ?_⟩
  · norm_num [blend, massQuality]
  · norm_num [blend, massQuality, toRho]

/-- **C110 (partial).** Bulk properties are those of the phase there is. Missing: two phases; see `C110_bulk_fails`. -/
theorem C110_bulk_partial (l g : Option ℝ) : bulk .l l g = some l ∧ bulk .g l g = some g := ⟨rfl, rfl⟩

/-- **C110 fails.** With two phases, reading `Vm`, `Cp`, `Cpm`, `SG`, `Z` or `isobaric_expansion`, and with the volume `Um`, `U`, `Am` and `A`, raises. -/
theorem C110_bulk_fails (l g Hm : Option ℝ) (P : ℝ) : bulk .lg l g = none ∧ Um .lg l g Hm P = none := ⟨rfl, rfl⟩

/-- **C110.** With one phase the internal energy is enthalpy less pressure times volume. -/
theorem C110_Um (V h P : ℝ) (hV : V ≠ 0) (o : Option ℝ) :
    Um .l (some V) o (some h) P = some (some (h - P * V)) ∧ Um .g o (some V) (some h) P = some (some (h - P * V)) := by
  simp [Um, bulk, Functional.select, hV]

/-- **C110 (partial).** The specific gravity of the gas is its density over that of air if the gas has the molecular weight of the mixture. Missing: two phases, see
`C110_SGg_fails`. -/
theorem C110_SGg_partial (MW MWg V : ℝ) (hg : MWg ≠ 0) (hV : V ≠ 0) :
    SGg MW V = toRho V MWg / 1.2231876628642968 ↔ MW = MWg := by
  unfold SGg toRho
  constructor
  · intro h
    have h1 : MW / 1000 / V = MWg / 1000 / V := by
      have h2 : (1.2231876628642968 : ℝ) ≠ 0 := by norm_num
      exact (div_left_inj' h2).mp h
    have h3 := (div_left_inj' hV).mp h1
    exact (div_left_inj' (by norm_num : (1000 : ℝ) ≠ 0)).mp h3
  · rintro rfl
    rfl

/-- **C110 fails.** `SGg` takes the molecular weight of the whole mixture with the volume of a gas of composition `ys`. -/
theorem C110_SGg_fails : ∃ (MWs z x y : Fin 2 → ℝ) (VF V : ℝ), 0 < VF ∧ VF < 1 ∧ (∀ i, z i = VF * y i + (1 - VF) * x i) ∧ 0 < V ∧
    SGg (mix z MWs) V ≠ toRho V (mix y MWs) / 1.2231876628642968 := by
  refine ⟨![2, 6], ![1 / 2, 1 / 2], ![1, 0], ![0, 1], 1 / 2, 1, by norm_num, by norm_num, fun i => by fin_cases i <;> norm_num, by norm_num, ?_⟩
  norm_num [SGg, toRho, mix, Fin.sum_univ_two]

/-- **C110 (partial).** `Zl_STP` and `Zg_STP` are right for a mixture that is at 298.15 K and 101325 Pa. -/
theorem C110_Z_STP_partial (R : ℝ) (V : ℝ → ℝ → ℝ) : ZSTP R V 298.15 101325 = 101325 * V 298.15 101325 / (R * 298.15) := rfl

/-- **C110 fails.** "At 298.15 K and 101.325 kPa, and the current composition": the values follow the mixture's temperature and pressure; a gas of volume `RT/P + b`. -/
theorem C110_Z_STP_fails (R : ℝ) (hR : 0 < R) : ∃ (V : ℝ → ℝ → ℝ) (T P : ℝ), 0 < T ∧ 0 < P ∧
    ZSTP R V T P ≠ 101325 * V 298.15 101325 / (R * 298.15) := by
  refine ⟨fun T P => R * T / P + 1, 298.15, 202650, by norm_num, by norm_num, ?_⟩
  unfold ZSTP
  intro h
  have hR' := hR.ne'
  rw [div_left_inj' (by positivity)] at h
  ring_nf at h
  norm_num at h

/-- **C110 (partial).** The expansion coefficient of a phase is the derivative of its volume over the volume if it has the composition of the mixture. -/
theorem C110_expansion_partial {N : ℕ} (V dV : (Fin N → ℝ) → ℝ) (zs : Fin N → ℝ) : expansion V dV zs zs = dV zs / V zs := rfl

/-- **C110 fails.** With two phases the derivative is at the composition of the mixture and the volume at that of the phase: an ideal mixture of components with volumes `T` and `1 + 3T`. -/
theorem C110_expansion_fails : ∃ (V dV : (Fin 2 → ℝ) → ℝ) (z x y : Fin 2 → ℝ) (VF : ℝ), (∀ i, z i = VF * y i + (1 - VF) * x i) ∧ 0 < VF ∧ VF < 1 ∧
    (∀ c, V c = mix c ![1, 1 + 3 * 1]) ∧ (∀ c, dV c = mix c ![1, 3]) ∧ expansion V dV z y ≠ dV y / V y := by
  refine ⟨fun c => mix c ![1, 1 + 3 * 1], fun c => mix c ![1, 3], ![1 / 2, 1 / 2], ![1, 0], ![0, 1], 1 / 2,
    fun i => by fin_cases i <;> norm_num, by norm_num, by norm_num, fun _ => rfl, fun _ => rfl, ?_⟩
  norm_num [expansion, mix, Fin.sum_univ_two]

/-- **C110.** The API gravity where the volume is known: `141.5 / SG - 131.5`. Without it, `rho` is not bound and the property raises. -/
theorem C110_API (MW : ℝ) : (∀ v, v ≠ 0 → MW ≠ 0 → ∃ a, API (some v) MW = some a ∧ (a + 131.5) * (MW / 1000 / v / 999.016) = 141.5) ∧ API none MW = none := by
  refine ⟨fun v hv hM => ⟨_, by rw [API, if_neg hv], ?_⟩, rfl⟩
  unfold toRho
  have h : MW / 1000 / v / 999.016 ≠ 0 := by positivity
  rw [sub_add_cancel, div_mul_cancel₀ _ h]

/-- **C110 fails.** `nugs`, "pure component gas-phase kinematic viscosities", are those of the liquids. -/
theorem C110_nugs_fails : ∃ nul nug : List ℝ, nugs nul nug = nul ∧ nugs nul nug ≠ nug :=
  ⟨[1], [2], rfl, by simp [nugs]⟩

/-- **C110.** Enthalpies of combustion and formation: the mixture's value per mass is the one per mole over the molecular weight (`mixing_simple` with mass and with mole fractions). -/
theorem C110_combustion {N : ℕ} (MWs z Hm : Fin N → ℝ) (hM : ∀ i, 0 < MWs i) :
    mix (toMass MWs z) (fun i => toPerMass (Hm i) (MWs i)) = toPerMass (mix z Hm) (mix z MWs) := by
  unfold mix toMass toPerMass
  rw [sum_mul, sum_div]
  refine sum_congr rfl fun i _ => ?_
  have := (hM i).ne'
  field_simp

example : mix (toMass ![2, 6] ![1 / 2, 1 / 2]) (fun i => toPerMass (![100, 400] i) (![2, 6] i)) = toPerMass 250 4 := by
  rw [C110_combustion _ _ _ (fun i => by fin_cases i <;> norm_num)]
  norm_num [mix, Fin.sum_univ_two]

/-- **C110.** Atom fractions of a mixture sum to one. -/
theorem C110_atoms {A : Type} [DecidableEq A] {N : ℕ} (atomss : Fin N → List (A × ℕ)) (zs : Fin N → ℝ)
    (h : ((Equil.atomContent atomss zs).map Prod.snd).sum ≠ 0) :
    (((Equil.atomContent atomss zs).map fun x => (x.1, x.2 / ((Equil.atomContent atomss zs).map Prod.snd).sum)).map Prod.snd).sum = 1 := by
  have := (Equil.C72_atom_fractions atomss zs h).1
  simpa [Equil.atomFractions, div_eq_mul_inv] using this

/-- **C110.** Mass fractions of elements sum to one and are the averages of those of the components with the mass fractions. -/
theorem C110_elements {N : ℕ} {A : Type} [Fintype A] (z MWs : Fin N → ℝ) (n : Fin N → A → ℝ) (M : A → ℝ)
    (hMW : ∀ i, MWs i = ∑ a, n i a * M a) (hM : ∀ i, 0 < MWs i) (hz : ∀ i, 0 ≤ z i) (hs : 0 < ∑ i, z i) :
    ∑ a, elementMass z n M a = 1 ∧ ∀ a, elementMass z n M a = ∑ i, toMass MWs z i * (n i a * M a / MWs i) := by
  have hd : ∑ b, (∑ i, z i * n i b) * M b = ∑ i, z i * MWs i := by
    simp only [sum_mul]
    rw [sum_comm]
    refine sum_congr rfl fun i _ => ?_
    rw [hMW, mul_sum]
    exact sum_congr rfl fun b _ => by ring
  have hp := sum_pos_of z MWs hz hs hM
  constructor
  · unfold elementMass
    rw [← sum_div, hd, div_self hp.ne']
  · intro a
    unfold elementMass toMass
    rw [hd, sum_mul, sum_div]
    refine sum_congr rfl fun i _ => ?_
    have := (hM i).ne'
    field_simp

example : elementMass ![1 / 2, 1 / 2] ![![4, 1], ![6, 2]] ![1, 12] 1 = 18 / 23 := by
  norm_num [elementMass, Fin.sum_univ_two]

/-- **C110 (partial).** The first `properties()` has what was asked for. Missing: later calls; see `C110_properties_fails`. -/
theorem C110_properties_partial (p m : Bool) : (properties none p m).1 = (p, m) ∧ (properties none p m).2 = some (p, m) := ⟨rfl, rfl⟩

/-- **C110 fails.** Later calls return the first package whatever their arguments. -/
theorem C110_properties_fails (p m p' m' : Bool) : (properties (properties none p m).2 p' m').1 = (p, m) ∧
    ∃ p m p' m', (properties (properties none p m).2 p' m').1 ≠ (p', m') :=
  ⟨rfl, true, true, false, false, by decide⟩

end Verif.MixtureObj
