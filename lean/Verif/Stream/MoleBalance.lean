import Mathlib.Algebra.BigOperators.Fin
import Mathlib.Algebra.BigOperators.Ring.Finset
import Mathlib.Algebra.Field.Rat
import Mathlib.Data.Finset.Card
import Mathlib.Tactic.Ring
import Mathlib.Tactic.FieldSimp
import Mathlib.Tactic.Linarith

/-!
# Model of `mole_balance` (`/repo/thermo/stream.py` 3097-3397): C05, C06, C45

`N` is `compounds`. Every component list has length `N`, so it is a function on `Fin N`
(simplification: ragged lists, which raise `IndexError`, are left out). Inlets and outlets are
functions on `Fin a`, `Fin b`. Numbers are exact rationals.
-/

namespace Verif.MoleBalance

open Finset

/-- The part of a `StreamArgs` object read and written by `mole_balance`: component lists with
possibly unknown entries, the fully computed mole flows `ns_calc` available when `ns` is `None`
(`nsCalc`; stream.py 918-993), the total mole flow (`n` or `n_calc`, 3365-3367), and constants of the
flasher: molecular weights, reference liquid molar volumes, reference gas molar volume. -/
structure Strm (N : ℕ) where
  ns : Option (Fin N → Option ℚ)
  ms : Option (Fin N → Option ℚ)
  Qls : Option (Fin N → Option ℚ)
  Qgs : Option (Fin N → Option ℚ)
  nsCalc : Option (Fin N → ℚ)
  total : Option ℚ
  MW : Fin N → ℚ
  Vl : Fin N → ℚ
  Vg : ℚ

variable {N a b : ℕ}

/-- `ns`, else `ns_calc` if allowed (stream.py 3224-3229 and 3240-3245). -/
def baseNs (um : Bool) (f : Strm N) : Option (Fin N → Option ℚ) :=
  match f.ns with
  | some l => some l
  | none => if um then f.nsCalc.map (fun c j => some (c j)) else none

/-- `ns is None or None in ns` (stream.py 3230, 3246). -/
def isUnknown (um : Bool) (f : Strm N) : Bool :=
  match baseNs um f with
  | none => true
  | some l => !decide (∀ j, (l j).isSome = true)

/-- One stage of `_mole_balance_process_ns` (stream.py 3098-3108, 3110-3119, 3120-3129): if the
list has a known entry, fill the unknown entries of `ns` from it. -/
def fillFrom (ns src : Option (Fin N → Option ℚ)) (conv : Fin N → ℚ → ℚ) :
    Option (Fin N → Option ℚ) :=
  match src with
  | none => ns
  | some q =>
    if ∃ j, (q j).isSome = true then
      some (fun j => ((ns.getD (fun _ => none)) j).or ((q j).map (conv j)))
    else ns

/-- `_mole_balance_process_ns` (stream.py 3097-3130); `property_molar_to_mass(m, MW)` is
`1000*m/MW`. -/
def processNs (um uv : Bool) (f : Strm N) (ns : Option (Fin N → Option ℚ)) :
    Option (Fin N → Option ℚ) :=
  let ns1 := if um then fillFrom ns f.ms (fun j m => 1000 * m / f.MW j) else ns
  let ns2 := if uv then fillFrom ns1 f.Qls (fun j q => q / f.Vl j) else ns1
  if uv then fillFrom ns2 f.Qgs (fun _ q => q / f.Vg) else ns2

/-- The entry of `all_ns_in` / `all_ns_out` (stream.py 3222-3252). -/
def effNs (um uv : Bool) (f : Strm N) : Option (Fin N → Option ℚ) :=
  if isUnknown um f && um then processNs um uv f (baseNs um f) else baseNs um f

/-- `all_ns[i][j]`, `None` when the list itself is `None`. -/
def effAt (um uv : Bool) (f : Strm N) (j : Fin N) : Option ℚ := (effNs um uv f).bind (fun l => l j)

/-- The `ns` setter with a complete list (stream.py 902-915, single composition basis): every other
specification is cleared. (`compounds = 0` would store `None`; left out.) -/
def setNs (f : Strm N) (l : Fin N → ℚ) : Strm N :=
  { f with ns := some (fun j => some (l j)), ms := none, Qls := none, Qgs := none,
           nsCalc := none, total := some (∑ j, l j) }

/-- Last index flagged (the loops keep overwriting `*_unknown_idx`, 3235, 3251). -/
def lastIdx (p : Fin a → Bool) : Option (Fin a) := (List.finRange a).reverse.find? p

/-- Number of unknown streams. -/
def countUnknown (um : Bool) (s : Fin a → Strm N) : ℕ :=
  (univ.filter (fun i => isUnknown um (s i) = true)).card

/-- Sum of the known entries of component `j`. -/
def knownSum (um uv : Bool) (s : Fin a → Strm N) (j : Fin N) : ℚ :=
  ∑ i, (effAt um uv (s i) j).getD 0

/-- Writing one component back (stream.py 3318-3334 for inlets, 3336-3352 for outlets): into `ns`
if present, else `ms`, else `Qls`, else `Qgs`, else nowhere. `x j = some v` means component `j` of
this stream is to receive mole flow `v`. The loop over components touches different entries in
different iterations, so it is done at once. -/
def writeBack (f : Strm N) (x : Fin N → Option ℚ) : Strm N :=
  let put (conv : Fin N → ℚ → ℚ) (l : Fin N → Option ℚ) : Fin N → Option ℚ :=
    fun j => match x j with
      | some v => some (conv j v)
      | none => l j
  match f.ns, f.ms, f.Qls, f.Qgs with
  | some l, _, _, _ => { f with ns := some (put (fun _ v => v) l) }
  | none, some l, _, _ => { f with ms := some (put (fun j v => v * f.MW j / 1000) l) }
  | none, none, some l, _ => { f with Qls := some (put (fun j v => v * f.Vl j) l) }
  | none, none, none, some l => { f with Qgs := some (put (fun _ v => v * f.Vg) l) }
  | none, none, none, none => f

/-- Streams in which component `j` is missing (stream.py 3301-3314). -/
def missing (um uv : Bool) (s : Fin a → Strm N) (j : Fin N) : Finset (Fin a) :=
  univ.filter (fun i => effAt um uv (s i) j = none)

/-- `missing_count == 1` (stream.py 3315). -/
def soleMissing (um uv : Bool) (ins : Fin a → Strm N) (outs : Fin b → Strm N) (j : Fin N) : Bool :=
  decide ((missing um uv ins j).card + (missing um uv outs j).card = 1)

/-- Result of a balance: return value and the streams afterwards. -/
structure Result (N a b : ℕ) where
  ret : Bool
  ins : Fin a → Strm N
  outs : Fin b → Strm N

/-- `sum_i n_i` over streams with known total, and the number without (stream.py 3357-3389). -/
def totals (s : Fin a → Strm N) : ℚ × ℕ :=
  (∑ i, ((s i).total).getD 0, (univ.filter (fun i => (s i).total = none)).card)

/-- The component-wise loop (stream.py 3297-3352). -/
def componentwise (um uv : Bool) (ins : Fin a → Strm N) (outs : Fin b → Strm N) :
    Result N a b :=
  { ret := decide (∃ j, soleMissing um uv ins outs j = true)
    ins := fun i => writeBack (ins i) (fun j =>
      if soleMissing um uv ins outs j = true ∧ i ∈ missing um uv ins j then
        some (-(knownSum um uv ins j - knownSum um uv outs j)) else none)
    outs := fun i => writeBack (outs i) (fun j =>
      if soleMissing um uv ins outs j = true ∧ i ∈ missing um uv outs j then
        some (knownSum um uv ins j - knownSum um uv outs j) else none) }

/-- The last stage, total mole flow only (stream.py 3357-3397). When all inlets (outlets) are known
the total is the sum of their component flows; the model reads the same number from `total`. -/
def totalStage (ins : Fin a → Strm N) (outs : Fin b → Strm N) : Result N a b :=
  let ti := totals ins
  let tq := totals outs
  let ins' := if tq.2 = 0 ∧ ti.2 = 1 then
      fun i => if (ins i).total = none then { ins i with total := some (tq.1 - ti.1) } else ins i
    else ins
  let outs' := if ti.2 = 0 ∧ tq.2 = 1 then
      fun i => if (outs i).total = none then { outs i with total := some (ti.1 - tq.1) } else outs i
    else outs
  { ret := decide (tq.2 = 0 ∧ ti.2 = 1) || decide (ti.2 = 0 ∧ tq.2 = 1), ins := ins', outs := outs' }

/-- `mole_balance` (stream.py 3132-3397). -/
def moleBalance (um uv : Bool) (ins : Fin a → Strm N) (outs : Fin b → Strm N) : Result N a b :=
  let ui := countUnknown um ins
  let uo := countUnknown um outs
  if ui = 0 ∧ uo = 0 then ⟨false, ins, outs⟩
  else if uo = 1 ∧ ui = 0 then
    -- 3274-3282
    match lastIdx (fun i => isUnknown um (outs i)) with
    | none => ⟨false, ins, outs⟩
    | some o =>
      let l : Fin N → ℚ := if b = 1 then fun j => knownSum um uv ins j
        else fun j => knownSum um uv ins j - knownSum um uv outs j
      ⟨true, ins, fun i => if i = o then setNs (outs i) l else outs i⟩
  else if ui = 1 ∧ uo = 0 then
    -- 3283-3291
    match lastIdx (fun i => isUnknown um (ins i)) with
    | none => ⟨false, ins, outs⟩
    | some o =>
      let l : Fin N → ℚ := if a = 1 then fun j => knownSum um uv outs j
        else fun j => knownSum um uv outs j - knownSum um uv ins j
      ⟨true, fun i => if i = o then setNs (ins i) l else ins i, outs⟩
  else
    let r := componentwise um uv ins outs
    if r.ret then r else totalStage ins outs

end Verif.MoleBalance
