import Mathlib.Algebra.BigOperators.Fin
import Mathlib.Algebra.Field.Rat
import Mathlib.Data.Finset.Card
import Mathlib.Tactic.Ring
import Mathlib.Tactic.FieldSimp
import Mathlib.Tactic.Linarith
import Mathlib.Tactic.LinearCombination

/-!
# Model of `energy_balance` (`/repo/thermo/stream.py` 3400-3650): C07

One model covers `reactive=False` and `reactive=True`: the fields `H`, `energy`, `Hm` stand for
`H`, `energy`, `H_mass` or for their `_reactive` counterparts (the two code paths are textually the
same up to that renaming). Inlets and outlets are functions on `Fin a`, `Fin b`; numbers are exact
rationals.
-/

namespace Verif.EnergyBalance

open Finset

/-- What `energy_balance` reads of a stream. `kind`: `EnergyStream`, `StreamArgs` or an already
flashed stream. `H`: molar enthalpy (`f.H()`, else `f.H_calc`; 3493-3500). `energy`: `f.energy`,
else `f.energy_calc` (3516-3518). `m`: mass flow specification. `Hm`: mass enthalpy of
`flash_state()`, present exactly when `state_specified` (3588-3591; a failing flash is left out).
`n`: molar flow. `twoStates`: two state variables are specified (the guard of the `H` setter,
stream.py 548-555 via `state_specified`); `flowGiven`: a flow is specified (with `twoStates`, the
guard of the `energy` setter, 403-404 and 419-420). -/
inductive Kind | energyStream | args | flashed
  deriving DecidableEq, Repr

/-- See `Kind` above for the meaning of the fields (stream.py 3471-3540). -/
structure Strm where
  kind : Kind
  H : Option ℚ
  energy : Option ℚ
  m : Option ℚ
  Hm : Option ℚ
  n : Option ℚ
  twoStates : Bool
  flowGiven : Bool
  deriving DecidableEq

/-- Outcome: an exception, or a return value with the streams afterwards. -/
inductive Outcome (a b : ℕ)
  | raised
  | done (ret : Bool) (ins : Fin a → Strm) (outs : Fin b → Strm)

variable {a b : ℕ}

/-- Indices with unknown energy. -/
def unknowns (s : Fin a → Strm) : Finset (Fin a) := univ.filter (fun i => (s i).energy = none)

/-- `sum(v for v in all_energy if v is not None)`. -/
def knownEnergy (s : Fin a → Strm) : ℚ := ∑ i, ((s i).energy).getD 0

/-- Last flagged index (3523, 3539). -/
def lastUnknown (s : Fin a → Strm) : Option (Fin a) :=
  (List.finRange a).reverse.find? (fun i => decide ((s i).energy = none))

/-- The `energy` setter refuses (stream.py 396-405, 412-421). -/
def energyRefused (f : Strm) : Bool := f.twoStates && f.flowGiven

/-- Storing the `energy` specification (3557-3559, 3566-3569). -/
def setEnergy (f : Strm) (q : ℚ) : Strm := { f with energy := some q }

/-- Setting the mass flow of a stream whose state is specified: `energy_calc` then yields
`m * H_mass` (3596-3597; stream.py 1236-1272). -/
def setMass (f : Strm) (m : ℚ) : Strm := { f with m := some m, energy := f.Hm.map (fun h => m * h) }

/-- `sum(v.m ...)` over the streams outside `skip` that are not energy streams; `None` (a
`TypeError` in the code) when one of them has no mass flow (3594-3595, 3625-3626, 3644-3645). -/
def massSum (s : Fin a → Strm) (skip : Finset (Fin a)) : Option ℚ :=
  if ∃ i, i ∉ skip ∧ (s i).kind ≠ Kind.energyStream ∧ (s i).m = none then none
  else some (∑ i, if i ∉ skip ∧ (s i).kind ≠ Kind.energyStream then ((s i).m).getD 0 else 0)

/-- `isinstance(f, StreamArgs) and f.state_specified`. -/
def eligible (f : Strm) : Bool := decide (f.kind = Kind.args) && f.Hm.isSome

/-- The two-unknown branch on one side (3599-3630 and 3631-3649), `other` being the fully known side
with total energy `eo`. Returns the updated side. Division by a zero enthalpy difference raises. -/
def twoUnknown (s : Fin a → Strm) (mOther : Option ℚ) (eo : ℚ) : Option (Option (Fin a → Strm)) :=
  match (List.finRange a).filter (fun i => eligible (s i)) with
  | [i0, i1] =>
    match (s i0).Hm, (s i1).Hm, massSum s {i0, i1}, mOther with
    | some h0, some h1, some mKn, some mo =>
      if h0 - h1 = 0 then none
      else
        let m0 := (h1 * mKn - h1 * mo - knownEnergy s + eo) / (h0 - h1)
        let m1 := (-h0 * mKn + h0 * mo + knownEnergy s - eo) / (h0 - h1)
        some (some (fun i => if i = i1 then setMass (s i) m1 else if i = i0 then setMass (s i) m0
          else s i))
    | _, _, _, _ => none
  | _ => some none

/-- The part of `energy_balance` after the one-in-one-out shortcut (3509-3650). -/
def general (useMass : Bool) (ins : Fin a → Strm) (outs : Fin b → Strm) : Outcome a b :=
  let ui := (unknowns ins).card
  let uo := (unknowns outs).card
  if ui = 0 ∧ uo = 0 then .done false ins outs
  else if uo = 1 ∧ ui = 0 then
    match lastUnknown outs with
    | none => .done false ins outs
    | some o => if energyRefused (outs o) then .raised else .done true ins
        (fun i => if i = o then setEnergy (outs i) (knownEnergy ins - knownEnergy outs) else outs i)
  else if ui = 1 ∧ uo = 0 then
    match lastUnknown ins with
    | none => .done false ins outs
    | some o => if energyRefused (ins o) then .raised else .done true
        (fun i => if i = o then setEnergy (ins i) (knownEnergy outs - knownEnergy ins) else ins i) outs
  else
    match lastUnknown ins, lastUnknown outs with
    | some p, some q =>
      if ui = 1 ∧ uo = 1 ∧ useMass = true ∧ eligible (ins p) = true ∧ eligible (outs q) = true then
        match (ins p).Hm, (outs q).Hm, massSum ins {p}, massSum outs {q} with
        | some hi, some ho, some mi, some mo =>
          if hi - ho = 0 then .raised
          else .done true
            (fun i => if i = p then setMass (ins i)
              ((ho * mi - ho * mo - knownEnergy ins + knownEnergy outs) / (hi - ho)) else ins i)
            (fun i => if i = q then setMass (outs i)
              ((hi * mi - hi * mo - knownEnergy ins + knownEnergy outs) / (hi - ho)) else outs i)
        | _, _, _, _ => .raised
      else .done false ins outs
    | _, _ =>
      if ui = 2 ∧ uo = 0 ∧ useMass = true then
        match twoUnknown ins (massSum outs ∅) (knownEnergy outs) with
        | none => .raised
        | some none => .done false ins outs
        | some (some ins') => .done true ins' outs
      else if uo = 2 ∧ ui = 0 ∧ useMass = true then
        match twoUnknown outs (massSum ins ∅) (knownEnergy ins) with
        | none => .raised
        | some none => .done false ins outs
        | some (some outs') => .done true ins outs'
      else .done false ins outs

/-- Setting the molar enthalpy; `energy_calc` then yields `n * H` when the flow is known
(3487, 3490, 3503, 3506). -/
def setH (f : Strm) (h : ℚ) : Strm := { f with H := some h, energy := f.n.map (fun n => n * h) }

/-- `energy_balance`: the one-in-one-out shortcut copies the molar enthalpy (3471-3507), otherwise
the general part. -/
def energyBalance (useMass : Bool) (ins : Fin a → Strm) (outs : Fin b → Strm) : Outcome a b :=
  if h : a = 1 ∧ b = 1 then
    let p : Fin a := ⟨0, by omega⟩
    let q : Fin b := ⟨0, by omega⟩
    if (ins p).kind ≠ Kind.energyStream ∧ (outs q).kind ≠ Kind.energyStream then
      match (ins p).H, (outs q).H with
      | some hi, none => if (outs q).twoStates then .raised
          else .done true ins (fun i => setH (outs i) hi)
      | none, some ho => if (ins p).twoStates then .raised
          else .done true (fun i => setH (ins i) ho) outs
      | _, _ => general useMass ins outs
    else general useMass ins outs
  else general useMass ins outs

end Verif.EnergyBalance
