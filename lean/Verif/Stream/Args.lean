import Mathlib.Data.Fintype.Basic
import Mathlib.Data.Fintype.OfMap
import Mathlib.Data.Rat.Defs

/-!
# Model of `StreamArgs` specification bookkeeping (`/repo/thermo/stream.py`)

Numbers are exact rationals (Python floats in the source); a composition list may contain `None`
entries, hence `List (Option ℚ)`.
-/

namespace Verif.Stream

/-- The nineteen thermodynamic-state keys of `StreamArgs.specifications`
(stream.py 244-253). -/
inductive SV
  | T | P | V | rho | rho_mass | VF | H | H_mass | S | S_mass | U | U_mass | A | A_mass | G | G_mass
  | energy | energy_reactive | H_reactive
  deriving DecidableEq, Repr

instance : Fintype SV :=
  Fintype.ofList [.T, .P, .V, .rho, .rho_mass, .VF, .H, .H_mass, .S, .S_mass, .U, .U_mass, .A, .A_mass, .G,
    .G_mass, .energy, .energy_reactive, .H_reactive] (by intro x; cases x <;> simp)

/-- The eight composition keys (stream.py 240-241); the last four are also flow keys. -/
inductive CV
  | zs | ws | Vfls | Vfgs | ns | ms | Qls | Qgs
  deriving DecidableEq, Repr

instance : Fintype CV :=
  Fintype.ofList [.zs, .ws, .Vfls, .Vfgs, .ns, .ms, .Qls, .Qgs] (by intro x; cases x <;> simp)

/-- The five scalar flow keys (stream.py 242). -/
inductive FV
  | n | m | Q | Ql | Qg
  deriving DecidableEq, Repr

instance : Fintype FV :=
  Fintype.ofList [.n, .m, .Q, .Ql, .Qg] (by intro x; cases x <;> simp)

/-- A composition or component-flow list; entries may be `None`. -/
abbrev CList := List (Option ℚ)

/-- `StreamArgs.specifications` together with `multiple_composition_basis`
(stream.py 240-257). `Vf_TP`, `Q_TP`, `flasher` and the flash memo are not part of this record
(the memo is modelled in `Verif.Stream.Flash`). -/
structure Args where
  st : SV → Option ℚ
  cf : CV → Option CList
  fl : FV → Option ℚ
  multi : Bool

/-- Function update, i.e. Python's `s[k] = v`. -/
def upd {α β : Type} [DecidableEq α] (f : α → β) (k : α) (v : β) : α → β :=
  fun j => if j = k then v else f j

/-- Key list counted by `StreamArgs.state_specified` (stream.py 1580-1618). -/
def stateSpecifiedKeys : List SV :=
  [.T, .P, .V, .rho, .rho_mass, .VF, .H_mass, .H, .S, .S_mass, .U, .U_mass, .G, .G_mass, .A,
   .A_mass, .energy, .energy_reactive, .H_reactive]

/-- Key list counted by `StreamArgs.specified_state_vars` (stream.py 1562-1565).
`H_reactive` is not in it. -/
def specifiedStateVarsKeys : List SV :=
  [.T, .P, .V, .rho, .rho_mass, .VF, .H_mass, .H, .S_mass, .S, .U_mass, .U, .A_mass, .A, .G_mass,
   .G, .energy, .energy_reactive]

/-- Number of keys of a list whose specification is not `None`. -/
def countSome {α β : Type} (f : α → Option β) (l : List α) : Nat :=
  l.countP (fun k => (f k).isSome)

/-- `StreamArgs.state_specified` (stream.py 1569-1619): exactly two. -/
def stateSpecified (s : Args) : Bool := countSome s.st stateSpecifiedKeys == 2

/-- `StreamArgs.specified_state_vars` (stream.py 1552-1565). -/
def specifiedStateVars (s : Args) : Nat := countSome s.st specifiedStateVarsKeys

/-- Lookup order of `StreamArgs.composition_spec` (stream.py 1421-1437). -/
def compositionSpecKeys : List CV := [.zs, .ws, .Vfls, .Vfgs, .ns, .ms, .Qls, .Qgs]

/-- Name part of `StreamArgs.composition_spec` (stream.py 1411-1437). -/
def compositionSpec (s : Args) : Option CV :=
  compositionSpecKeys.find? (fun k => (s.cf k).isSome)

/-- Keys that specify a flow: four component lists, then five scalars, in the order of
`StreamArgs.flow_spec` (stream.py 1664-1682). -/
inductive FlowKey
  | comp (c : CV)
  | scal (f : FV)
  deriving DecidableEq, Repr

/-- Order of `StreamArgs.flow_spec` (stream.py 1664-1682). -/
def flowSpecKeys : List FlowKey :=
  [.comp .ns, .comp .ms, .comp .Qls, .comp .Qgs, .scal .m, .scal .n, .scal .Q, .scal .Ql, .scal .Qg]

/-- Whether a flow key is specified. -/
def flowKeySet (s : Args) : FlowKey → Bool
  | .comp c => (s.cf c).isSome
  | .scal f => (s.fl f).isSome

/-- Name part of `StreamArgs.flow_spec` (stream.py 1655-1682). -/
def flowSpec (s : Args) : Option FlowKey := flowSpecKeys.find? (flowKeySet s)

/-- `StreamArgs.flow_specified` (stream.py 1700-1727). -/
def flowSpecified (s : Args) : Bool := flowSpecKeys.any (flowKeySet s)

/-- Which guard a state setter uses. -/
inductive Guard
  | byStateSpecified   -- `state_specified and own is None`
  | byCount            -- `specified_state_vars > 1 and own is None`
  | byCountAndFlow     -- `specified_state_vars > 1 and flow_specified and own is None`
  deriving DecidableEq, Repr

/-- The guard used by each state setter: energy 403, energy_reactive 419, T 434, P 482, V 496,
rho 510, rho_mass 524, VF 538, H 553, H_reactive 578, H_mass 603, U 628, U_mass 642, G 656,
G_mass 670, A 684, A_mass 698, S 712, S_mass 726 (stream.py). -/
def guardOf : SV → Guard
  | .T | .P | .V | .rho | .rho_mass | .VF | .H | .H_reactive | .U | .G | .A => .byStateSpecified
  | .H_mass | .U_mass | .G_mass | .A_mass | .S | .S_mass => .byCount
  | .energy | .energy_reactive => .byCountAndFlow

/-- Whether the setter of `v` (given a non-`None` value) raises in state `s`. -/
def stateSetterRaises (s : Args) (v : SV) : Bool :=
  (s.st v).isNone &&
    match guardOf v with
    | .byStateSpecified => stateSpecified s
    | .byCount => decide (1 < specifiedStateVars s)
    | .byCountAndFlow => decide (1 < specifiedStateVars s) && flowSpecified s

/-- Outcome of a method: the object afterwards and whether an exception was raised. -/
structure Outcome where
  state : Args
  raised : Bool

/-- State setters (stream.py 395-728): `None` clears, a refused value raises `ValueError` before
anything is written, otherwise the value is stored. -/
def setState (s : Args) (v : SV) (x : Option ℚ) : Outcome :=
  match x with
  | none => ⟨{ s with st := upd s.st v none }, false⟩
  | some _ =>
    if stateSetterRaises s v then ⟨s, true⟩
    else ⟨{ s with st := upd s.st v x }, false⟩

/-- `if not arg: arg = None` (stream.py 741, 816, 850, 886, 909). -/
def emptyToNone (l : CList) : Option CList := if l.isEmpty then none else some l

/-- Component-list flow keys are the ones that also count as flow specifications. -/
def isFlowList : CV → Bool
  | .ns | .ms | .Qls | .Qgs => true
  | _ => false

/-- The value stored for a non-`None` argument: `zs`, `ws`, `Vfls`, `Vfgs` and `ns` turn an empty
list into `None` (741, 816, 850, 886, 909); `ms`, `Qls`, `Qgs` do not (1005-1010, 1036-1041,
1061-1068). -/
def storedList : CV → CList → Option CList
  | .ms, l => some l
  | .Qls, l => some l
  | .Qgs, l => some l
  | _, l => emptyToNone l

/-- Composition setters: `zs` 735-750, `ws` 809-825, `Vfls` 843-859, `Vfgs` 879-895,
`ns` 902-915, `ms` 1000-1010, `Qls` 1031-1041, `Qgs` 1057-1068 (stream.py). -/
def setComp (s : Args) (c : CV) (x : Option CList) : Outcome :=
  match x with
  | none => ⟨{ s with cf := upd s.cf c none }, false⟩
  | some l =>
    if s.multi then ⟨{ s with cf := upd s.cf c (storedList c l) }, false⟩
    else if isFlowList c then
      -- every other composition key and every scalar flow key is cleared
      ⟨{ s with cf := upd (fun _ => none) c (storedList c l), fl := fun _ => none }, false⟩
    else
      match compositionSpec s with
      | some c' =>
        if c' ≠ c then ⟨s, true⟩
        else ⟨{ s with cf := upd (fun _ => none) c (storedList c l) }, false⟩
      | none => ⟨{ s with cf := upd (fun _ => none) c (storedList c l) }, false⟩

/-- `s['Qls'] = s['ms'] = s['ns'] = s['Qgs'] = None` in a composition record. -/
def clearFlowLists (cf : CV → Option CList) : CV → Option CList :=
  fun c => if isFlowList c then none else cf c

/-- Scalar flow setters: `m` 1085-1095, `n` 1116-1126, `Ql` 1150-1160, `Qg` 1181-1191,
`Q` 1212-1222 (stream.py). -/
def setFlow (s : Args) (f : FV) (x : Option ℚ) : Outcome :=
  match x with
  | none => ⟨{ s with fl := upd s.fl f none }, false⟩
  | some _ =>
    match flowSpec s with
    | some k =>
      if k ≠ .scal f then ⟨s, true⟩
      else ⟨{ s with cf := clearFlowLists s.cf, fl := upd (fun _ => none) f x }, false⟩
    | none => ⟨{ s with cf := clearFlowLists s.cf, fl := upd (fun _ => none) f x }, false⟩

/-- `clear_composition_spec` (stream.py 1399-1408). -/
def clearCompositionSpec (s : Args) : Args := { s with cf := fun _ => none }

/-- `clear_state_specs` (stream.py 1471-1486): every key of the listed eighteen; `H_reactive` is
not listed. -/
def clearStateSpecs (s : Args) : Args :=
  { s with st := fun v => if v ∈ specifiedStateVarsKeys then none else s.st v }

/-- `clear_flow_spec` (stream.py 1642-1652). -/
def clearFlowSpec (s : Args) : Args :=
  { s with cf := clearFlowLists s.cf, fl := fun _ => none }

/-- Public mutating operations. `update(**kwargs)` (stream.py 1729-1761) is a sequence of setter
calls, so histories of operations cover it. -/
inductive Op
  | setState (v : SV) (x : Option ℚ)
  | setComp (c : CV) (x : Option CList)
  | setFlow (f : FV) (x : Option ℚ)
  | clearComposition
  | clearState
  | clearFlow

/-- One public operation. -/
def step (s : Args) : Op → Outcome
  | .setState v x => setState s v x
  | .setComp c x => setComp s c x
  | .setFlow f x => setFlow s f x
  | .clearComposition => ⟨clearCompositionSpec s, false⟩
  | .clearState => ⟨clearStateSpecs s, false⟩
  | .clearFlow => ⟨clearFlowSpec s, false⟩

/-- A history of operations; the caller may catch exceptions and carry on. -/
def run (s : Args) : List Op → Args
  | [] => s
  | o :: os => run (step s o).state os

/-- Keyword arguments given to `StreamArgs.__init__` (stream.py 229-239). -/
structure Given where
  st : SV → Option ℚ
  cf : CV → Option CList
  fl : FV → Option ℚ
  multi : Bool

/-- The dictionary built by the constructor (stream.py 240-253). Note the last entry:
`'H_reactive': energy_reactive`. -/
def initSpecs (g : Given) : Args :=
  { st := fun v => if v = .H_reactive then g.st .energy_reactive else g.st v
    cf := g.cf, fl := g.fl, multi := g.multi }

/-- `composition_specs` counted by the constructor (stream.py 265-286). -/
def ctorCompositionSpecs (g : Given) : Nat := countSome g.cf compositionSpecKeys

/-- `flow_specs` counted by the constructor (stream.py 275-297). -/
def ctorFlowSpecs (g : Given) : Nat :=
  countSome g.cf [.ns, .ms, .Qls, .Qgs] + countSome g.fl [.n, .m, .Q, .Ql, .Qg]

/-- `state_specs` counted by the constructor (stream.py 299-336). -/
def ctorStateSpecs (g : Given) : Nat := countSome g.st stateSpecifiedKeys

/-- `StreamArgs.__init__` (stream.py 229-343). `reconcile` is `reconcile_flows`
(modelled in `Verif.Stream.Reconcile`), returning `none` when it raises. -/
def ctor (reconcile : Args → Option Args) (g : Given) : Option Args :=
  let s := initSpecs g
  let s' := if 1 < ctorFlowSpecs g ∨ 1 < ctorCompositionSpecs g then reconcile s else some s
  match s' with
  | none => none
  | some s' =>
    if 1 < ctorCompositionSpecs g ∧ g.multi = false then none
    else if 2 < ctorStateSpecs g then none
    else some s'

/-- `StreamArgs.copy` (stream.py 345-386): rebuilds through the constructor from the stored
dictionary. -/
def copy (reconcile : Args → Option Args) (s : Args) : Option Args :=
  ctor reconcile { st := s.st, cf := s.cf, fl := s.fl, multi := s.multi }

end Verif.Stream
