import Mathlib.Data.Rat.Init
import Mathlib.Algebra.Order.Ring.Rat
import Mathlib.Logic.Function.Basic

/-!
# Temperature-dependent property objects (`thermo/utils/t_dependent_property.py`)

A `TDependentProperty` holds a table of methods, a selected method, a pair of extrapolation names and
three memo tables: the last call (`T_cached`, `prop_cached`), the fitted extrapolation coefficients
(`extrapolation_coeffs`) and the interpolators of tabular methods (`tabular_data_interpolators`).
The model is a state machine over exactly these fields.

Temperatures and values are exact rationals. A Python exception is `none` inside a calculation and
`Res.raised` at the level of the public call.
-/

namespace Verif.TDep

/-- What a public evaluation gives: a number, `None`, or an exception. -/
inductive Res where
  | val (v : ℚ)
  | none
  | raised
  deriving DecidableEq

/-- How a method computes its value: `fn` is a correlation, a local method or a piecewise method
(t_dependent_property.py `_base_calculate`, 2964-3033); `table` is a series of tabular data `d`, evaluated
through an interpolator built from the data (3400-3474, `interpolate`). Simplified: a piecewise method is
the function it is when added (the code looks its parts up by name at each evaluation), and re-using a name
across kinds replaces the method (in the code the older kind can keep precedence, 2965-3031). -/
inductive Src (D : Type) where
  | fn (f : ℚ → Option ℚ)
  | table (d : D)

/-- A method known to the object: an entry of `all_methods` with its source, its entry in `T_limits`
(`none`: absent, which raises `KeyError` at 3094) and the answer of `test_method_validity`
(5105-5137; simplified: that call does not raise). -/
structure Meth (D : Type) where
  src : Src D
  lims : Option (ℚ × ℚ)
  valid : ℚ → Bool

/-- The parts of the class which the evaluation logic treats as black boxes.

* `pmin`, `pmax`: `property_min`, `property_max` (2613-2616); `strict`: `RAISE_PROPERTY_CALCULATION_ERROR`.
* `fit e f Tmin Tmax low`: `_get_extrapolation_coeffs` (4466-4523) for the method function `f`.
* `form e k f Tlim T`: the value of the extrapolation form (4612-4647), `none` for an unknown form.
* `usesFn e`: whether the form evaluates the method itself (`nolimit`, 4629-4630).
* `emin`, `emax`: `_extrapolation_min`, `_extrapolation_max` (4649-4652).
* `build d`: the interpolator made from a data series (3433-3455). -/
structure Params (E K D : Type) where
  pmin : ℚ
  pmax : ℚ
  strict : Bool
  fit : E → (ℚ → Option ℚ) → ℚ → ℚ → Bool → Option K
  form : E → K → (ℚ → Option ℚ) → ℚ → ℚ → Option ℚ
  usesFn : E → Bool
  emin : Option ℚ
  emax : Option ℚ
  build : D → ℚ → Option ℚ

/-- The configuration of an object: what the user chose. `meths` merges `all_methods`, `T_limits`,
`correlations`, `local_methods`, `piecewise_methods` and `tabular_data`; `ext` is the pair
`_extrapolation_low`, `_extrapolation_high`, `none` when `_extrapolation is None` (4533-4554). -/
structure Config (M E D : Type) where
  method : Option M
  meths : M → Option (Meth D)
  ext : Option (E × E)

/-- The object: configuration and memo tables (1828, 1841, 1843). -/
structure Obj (M E K D : Type) where
  cfg : Config M E D
  cache : Option (ℚ × Res)
  coeffs : E → M → Bool → Option K
  interps : M → Option (ℚ → Option ℚ)

variable {M E K D : Type} [DecidableEq M] [DecidableEq E]

/-- `calculate(T, method)` as a function of `T` (3022-3025, 3427-3456): a tabular method uses the
interpolator stored under its name if there is one. -/
def methFun (p : Params E K D) (s : Obj M E K D) (m : M) (md : Meth D) : ℚ → Option ℚ :=
  match md.src with
  | .fn f => f
  | .table d => match s.interps m with
    | some g => g
    | none => p.build d

/-- The side effect of `calculate` on the interpolator table (3456). -/
def touch (p : Params E K D) (s : Obj M E K D) (m : M) (md : Meth D) : Obj M E K D :=
  match md.src with
  | .fn _ => s
  | .table d => match s.interps m with
    | some _ => s
    | none => { s with interps := Function.update s.interps m (some (p.build d)) }

/-- The clamp at the end of `extrapolate` (4649-4652). -/
def clamp (lo hi : Option ℚ) (v : ℚ) : ℚ :=
  match lo, hi with
  | some a, some b => if v < a then a else if v > b then b else v
  | some a, none => if v < a then a else v
  | none, some b => if v > b then b else v
  | none, none => v

/-- The side of the range on which `extrapolate` with `in_range='error'` works (4579-4604): `some
true` below, `some false` above, `none` when it raises. -/
def side (T lo hi : ℚ) : Option Bool :=
  if T < 0 then none
  else if T ≤ lo then some true
  else if hi ≤ T then some false
  else none

/-- `extrapolate(T, method)` (4556-4653): side, coefficients from the memo or fitted and stored, the
form's value, the clamp. The result is `none` when it raises. -/
def extrapolate (p : Params E K D) (s : Obj M E K D) (ext : E × E) (m : M) (md : Meth D) (T : ℚ) :
    Option ℚ × Obj M E K D :=
  match md.lims with
  | none => (none, s)
  | some (lo, hi) => match side T lo hi with
    | none => (none, s)
    | some low =>
      let e := if low then ext.1 else ext.2
      let lim := if low then lo else hi
      match s.coeffs e m low with
      | some k =>
        let s' := if p.usesFn e then touch p s m md else s
        ((p.form e k (methFun p s m md) lim T).map (clamp p.emin p.emax), s')
      | none =>
        let s' := touch p s m md
        match p.fit e (methFun p s m md) lo hi low with
        | none => (none, s')
        | some k =>
          ((p.form e k (methFun p s m md) lim T).map (clamp p.emin p.emax),
            { s' with
              coeffs := Function.update s'.coeffs e
                (Function.update (s'.coeffs e) m (Function.update (s'.coeffs e m) low (some k))) })

/-- `test_property_validity` for a real number (2613-2617). -/
def plausible (p : Params E K D) (v : ℚ) : Bool :=
  if v < p.pmin then false else if v > p.pmax then false else true

/-- `None`, or an exception when the object is strict (the repeated
`if self.RAISE_PROPERTY_CALCULATION_ERROR: raise`). -/
def giveUp (p : Params E K D) : Res := if p.strict then .raised else .none

/-- Is the method used at `T` (3093-3097)? -/
def inRange (md : Meth D) (T : ℚ) : Bool :=
  match md.lims with
  | some (lo, hi) => decide (lo ≤ T) && decide (T ≤ hi)
  | none => md.valid T

/-- `T_dependent_property(T)` (3067-3115). A selected method absent from the table behaves like a
failing one. -/
def evaluate (p : Params E K D) (s : Obj M E K D) (T : ℚ) : Res × Obj M E K D :=
  match s.cfg.method with
  | none => (giveUp p, s)
  | some m => match s.cfg.meths m with
    | none => (giveUp p, s)
    | some md =>
      if inRange md T then
        let s' := touch p s m md
        match methFun p s m md T with
        | none => (giveUp p, s')
        | some v => if plausible p v then (.val v, s') else (giveUp p, s')
      else match s.cfg.ext with
        | none => (giveUp p, s)
        | some ext =>
          match extrapolate p s ext m md T with
          | (some v, s') => (.val v, s')
          | (none, s') => (giveUp p, s')

/-- `__call__(T)` (1784-1806): the memoised value when `T` is the temperature of the last call, else
an evaluation which is memoised unless it raised. -/
def call (p : Params E K D) (s : Obj M E K D) (T : ℚ) : Res × Obj M E K D :=
  match s.cache with
  | some (T', v) =>
    if T = T' then (v, s)
    else match evaluate p s T with
      | (.raised, s') => (.raised, s')
      | (r, s') => (r, { s' with cache := some (T, r) })
  | none => match evaluate p s T with
    | (.raised, s') => (.raised, s')
    | (r, s') => (r, { s' with cache := some (T, r) })

/-- `prop.method = m` (2553-2559): an unknown name raises (`none`). -/
def setMethod (s : Obj M E K D) (m : Option M) : Option (Obj M E K D) :=
  match m with
  | none => some { s with cfg := { s.cfg with method := none }, cache := none }
  | some m => match s.cfg.meths m with
    | none => none
    | some _ => some { s with cfg := { s.cfg with method := some m }, cache := none }

/-- `prop.extrapolation = ...` (4533-4554) with the string already split at `|`; the call memo is not
touched. -/
def setExtrapolation (s : Obj M E K D) (e : Option (E × E)) : Obj M E K D :=
  { s with cfg := { s.cfg with ext := e } }

/-- Store a method under a name, in `all_methods`, `T_limits` and the table of its kind. -/
def store (s : Obj M E K D) (name : M) (md : Meth D) : Obj M E K D :=
  { s with cfg := { s.cfg with meths := Function.update s.cfg.meths name (some md) } }

/-- `add_method` (3722-3770): stored and selected, the call memo cleared, the other memos kept. -/
def addMethod (s : Obj M E K D) (name : M) (md : Meth D) : Obj M E K D :=
  let s' := store s name md
  { s' with cfg := { s'.cfg with method := some name }, cache := none }

/-- `add_tabular_data` (3772-3810) and, with `fresh = true`, `add_correlation` (3633-3704) and
`add_piecewise_method` (3589-3630), which refuse a name in use: stored, and selected through the method
setter if `select`. Argument checks are omitted. -/
def addData (s : Obj M E K D) (fresh : Bool) (name : M) (md : Meth D) (select : Bool) :
    Option (Obj M E K D) :=
  if fresh && (s.cfg.meths name).isSome then none
  else if select then setMethod (store s name md) (some name)
  else some (store s name md)

/-- The public operations. -/
inductive Op (M E D : Type) where
  | call (T : ℚ)
  | setMethod (m : Option M)
  | setExtrapolation (e : Option (E × E))
  | addMethod (name : M) (md : Meth D)
  | addData (fresh : Bool) (name : M) (md : Meth D) (select : Bool)

/-- One operation; a raising one leaves the object as it was. -/
def step (p : Params E K D) (s : Obj M E K D) : Op M E D → Obj M E K D
  | .call T => (call p s T).2
  | .setMethod m => (setMethod s m).getD s
  | .setExtrapolation e => setExtrapolation s e
  | .addMethod n md => addMethod s n md
  | .addData fr n md sel => (addData s fr n md sel).getD s

/-- A new object (1818-1960): methods loaded, empty memos. -/
def new (c : Config M E D) : Obj M E K D := ⟨c, none, fun _ _ _ => none, fun _ => none⟩

/-- A history. -/
def run (p : Params E K D) (s : Obj M E K D) (ops : List (Op M E D)) : Obj M E K D :=
  ops.foldl (step p) s

end Verif.TDep
