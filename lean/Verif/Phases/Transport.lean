import Mathlib.Analysis.SpecialFunctions.Pow.Real
import Mathlib.Tactic

/-!
# Transport properties of phases

C162: viscosity, thermal conductivity and surface tension of a phase come from the correlations for one and the same state of matter, do
not depend on earlier calls, and the kinematic viscosity, thermal diffusivity and Prandtl number follow from them.

* `thermo/phases/phase.py`: `Prandtl` (2653-2667), `mu` (5091-5097), `nu` (5099-5114), `alpha` (5118-5136), `ws` (5140-5167),
  `sigma` (5169-5198); the class has no method `k`;
* `thermo/phases/__init__.py`: `gas_phases`, `liquid_phases`, `solid_phases` (224-242);
* `thermo/phases/ceos.py`: `mu` (345-364), `k` (366-381), `phase` (598-603, 885-890);
* `thermo/phases/ideal_gas.py`: `mu`, `k` (756-772);
* `thermo/phases/gibbs_excess.py`: `mu`, `k` (3356-3370), `GibbsExcessSolid` (3373-3378);
* `thermo/equilibrium.py`: `EquilibriumState.__init__`, the marks left on phases (284-325), and `nu` (1959-1974).

The five mixture correlations are arbitrary functions of the mass fractions at the fixed temperature, pressure and mole fractions of the
phase, with `none` for the value `None`. Phases with their own formulas (IAPWS, CoolProp, dry air) are not modelled here.
-/

namespace Verif.Transport

open Finset

/-! ## Mass fractions -/

/-- `ws` (phase.py 5155-5166); `none` when the sum of products is zero and the division raises. -/
noncomputable def ws {n : ℕ} (zs MWs : Fin n → ℝ) : Option (Fin n → ℝ) :=
  if ∑ i, zs i * MWs i = 0 then none else some fun i => zs i * MWs i * (1 / ∑ j, zs j * MWs j)

/-- Mass fractions are non-negative, add up to one and are in the ratio of the masses of the components. -/
theorem C162_ws {n : ℕ} {zs MWs w : Fin n → ℝ} (hz : ∀ i, 0 ≤ zs i) (hM : ∀ i, 0 < MWs i) (h : ws zs MWs = some w) :
    (∀ i, 0 ≤ w i) ∧ ∑ i, w i = 1 ∧ ∀ i j, w i * (zs j * MWs j) = w j * (zs i * MWs i) := by
  unfold ws at h
  split_ifs at h with h0
  have := Option.some.inj h
  subst this
  refine ⟨fun i => ?_, ?_, fun i j => by ring⟩
  · have : 0 ≤ ∑ j, zs j * MWs j := sum_nonneg fun j _ => mul_nonneg (hz j) (hM j).le
    have := mul_nonneg (hz i) (hM i).le
    positivity
  · rw [← sum_mul]
    field_simp

/-- Mass fractions exist exactly when some component is present. -/
theorem C162_ws_exists {n : ℕ} {zs MWs : Fin n → ℝ} (hz : ∀ i, 0 ≤ zs i) (hM : ∀ i, 0 < MWs i) :
    (ws zs MWs).isSome ↔ ∃ i, zs i ≠ 0 := by
  unfold ws
  have hs : (∑ i, zs i * MWs i = 0) ↔ ∀ i, zs i = 0 := by
    rw [sum_eq_zero_iff_of_nonneg fun i _ => mul_nonneg (hz i) (hM i).le]
    constructor
    · intro h i
      exact (mul_eq_zero.1 (h i (mem_univ i))).resolve_right (hM i).ne'
    · intro h i _
      rw [h i, zero_mul]
  by_cases h : ∑ i, zs i * MWs i = 0
  · rw [if_pos h]
    have := hs.1 h
    simp [this]
  · rw [if_neg h]
    have : ¬ ∀ i, zs i = 0 := fun hh => h (hs.2 hh)
    push Not at this
    simpa using this

/-- Equal amounts of water and of something twice as heavy. -/
example : ws ![1 / 2, 1 / 2] ![18, 36] = some ![1 / 3, 2 / 3] := by
  unfold ws
  rw [if_neg (by norm_num [Fin.sum_univ_two])]
  congr 1
  funext i
  fin_cases i <;> norm_num [Fin.sum_univ_two]

/-! ## Which correlation -/

/-- Values of `assigned_phase` and of `phase`; `eos` writes `l/g` for two volumes. -/
inductive Tag | g | l | s | lg
  deriving DecidableEq

/-- The mixture correlations of a phase (`PropertyCorrelationsPackage`). -/
inductive Corr | muGas | muLiquid | kGas | kLiquid | sigma
  deriving DecidableEq

/-- Exceptions: `NotImplementedError`, `AttributeError`, `UnboundLocalError`. -/
inductive Err | notImplemented | missing | unbound
  deriving DecidableEq

/-- The classes whose transport properties are correlations. `other` is a class in none of the tuples, as `GraysonStreed`. -/
inductive Cls | ceosGas | ceosLiquid | idealGas | virialGas | excessLiquid | excessSolid | other
  deriving DecidableEq

/-- `is_liquid` (ceos.py 594-595, 881-882, ideal_gas.py 81-82, gibbs_excess.py 214-215, 3377-3378, virial_phase.py 967-968, petroleum.py
37-38). -/
def Cls.isLiquid : Cls → Bool
  | .ceosLiquid | .excessLiquid | .other => true
  | _ => false

/-- `phase` of `CEOSGas` and `CEOSLiquid` (ceos.py 598-603, 885-890), from the phase of the equation of state. -/
def ceosPhase (gas : Bool) : Tag → Tag
  | .g => .g
  | .l => .l
  | _ => if gas then .g else .l

/-- The state of matter that `mu` and `k` of a cubic phase look at (ceos.py 350-354, 371-375). -/
def looked (gas : Bool) (assigned : Option Tag) (eos : Tag) : Tag :=
  match assigned with
  | some t => t
  | none => match ceosPhase gas eos with
    | .lg => .g
    | t => t

/-- The correlation of `mu` (phase.py 5091-5097 for `VirialGas` and other classes, ceos.py 350-362, ideal_gas.py 761, gibbs_excess.py
3361). `GibbsExcessSolid` inherits from `GibbsExcessLiquid`. -/
def muCorr (c : Cls) (assigned : Option Tag) (eos : Tag) : Except Err Corr :=
  match c with
  | .ceosGas => if looked true assigned eos = .g then .ok .muGas else .ok .muLiquid
  | .ceosLiquid => if looked false assigned eos = .g then .ok .muGas else .ok .muLiquid
  | .idealGas => .ok .muGas
  | .virialGas => .ok .muGas
  | .excessLiquid => .ok .muLiquid
  | .excessSolid => .ok .muLiquid
  | .other => .error .notImplemented

/-- The correlation of `k` for the phase a cubic phase looks at (ceos.py 376-381): no branch assigns `k` for other states. -/
def kOf : Tag → Except Err Corr
  | .g => .ok .kGas
  | .l => .ok .kLiquid
  | _ => .error .unbound

/-- The correlation of `k` (ceos.py 371-381, ideal_gas.py 770, gibbs_excess.py 3369); other classes do not have the method. -/
def kCorr (c : Cls) (assigned : Option Tag) (eos : Tag) : Except Err Corr :=
  match c with
  | .ceosGas => kOf (looked true assigned eos)
  | .ceosLiquid => kOf (looked false assigned eos)
  | .idealGas => .ok .kGas
  | .excessLiquid => .ok .kLiquid
  | .excessSolid => .ok .kLiquid
  | .virialGas => .error .missing
  | .other => .error .missing

/-- The correlation of `sigma` (phase.py 5186-5196); `none` is the answer `None` for a gas, which is not stored. -/
def sigmaCorr (c : Cls) (assigned : Option Tag) : Except Err (Option Corr) :=
  match assigned with
  | some .g => .ok none
  | some .l => .ok (some .sigma)
  | some _ => .error .unbound
  | none => if c.isLiquid then .ok (some .sigma) else .ok none

/-- The correlation that belongs to a state of matter, written down independently of the code. -/
inductive Belongs : Tag → Corr → Prop
  | mug : Belongs .g .muGas
  | mul : Belongs .l .muLiquid
  | kg : Belongs .g .kGas
  | kl : Belongs .l .kLiquid
  | sl : Belongs .l .sigma

/-- Cubic phases marked as gas or liquid take all properties from correlations of that state; a gas has no surface tension. -/
theorem C162_marked {c : Cls} (hc : c = .ceosGas ∨ c = .ceosLiquid) {t : Tag} (ht : t = .g ∨ t = .l) (eos : Tag) :
    (∃ m k, muCorr c (some t) eos = .ok m ∧ kCorr c (some t) eos = .ok k ∧ Belongs t m ∧ Belongs t k ∧ m ≠ k) ∧
    (t = .g → sigmaCorr c (some t) = .ok none) ∧ (t = .l → ∃ s, sigmaCorr c (some t) = .ok (some s) ∧ Belongs t s) := by
  rcases hc with rfl | rfl <;> rcases ht with rfl | rfl
  · exact ⟨⟨_, _, rfl, rfl, .mug, .kg, nofun⟩, fun _ => rfl, nofun⟩
  · exact ⟨⟨_, _, rfl, rfl, .mul, .kl, nofun⟩, nofun, fun _ => ⟨_, rfl, .sl⟩⟩
  · exact ⟨⟨_, _, rfl, rfl, .mug, .kg, nofun⟩, fun _ => rfl, nofun⟩
  · exact ⟨⟨_, _, rfl, rfl, .mul, .kl, nofun⟩, nofun, fun _ => ⟨_, rfl, .sl⟩⟩

/-- Unmarked cubic phases never raise; viscosity and conductivity are of the same state: the one of the equation of state if it has one
volume, otherwise the one in the name of the class. -/
theorem C162_unmarked (gas : Bool) (eos : Tag) :
    ∃ t m k, (t = .g ∨ t = .l) ∧ muCorr (if gas then .ceosGas else .ceosLiquid) none eos = .ok m ∧
      kCorr (if gas then .ceosGas else .ceosLiquid) none eos = .ok k ∧ Belongs t m ∧ Belongs t k ∧ m ≠ k ∧
      (eos = .g ∨ eos = .l → t = eos) ∧ (eos = .lg → (t = .g ↔ gas = true)) := by
  cases gas <;> cases eos
  · exact ⟨.g, _, _, .inl rfl, rfl, rfl, .mug, .kg, nofun, fun _ => rfl, nofun⟩
  · exact ⟨.l, _, _, .inr rfl, rfl, rfl, .mul, .kl, nofun, fun _ => rfl, nofun⟩
  · exact ⟨.l, _, _, .inr rfl, rfl, rfl, .mul, .kl, nofun, by simp, nofun⟩
  · exact ⟨.l, _, _, .inr rfl, rfl, rfl, .mul, .kl, nofun, by simp, by simp⟩
  · exact ⟨.g, _, _, .inl rfl, rfl, rfl, .mug, .kg, nofun, fun _ => rfl, nofun⟩
  · exact ⟨.l, _, _, .inr rfl, rfl, rfl, .mul, .kl, nofun, fun _ => rfl, nofun⟩
  · exact ⟨.g, _, _, .inl rfl, rfl, rfl, .mug, .kg, nofun, by simp, nofun⟩
  · exact ⟨.g, _, _, .inl rfl, rfl, rfl, .mug, .kg, nofun, by simp, by simp⟩

/-- Ideal gases and activity coefficient liquids are what their names say, whatever mark or equation of state. -/
theorem C162_named (a : Option Tag) (eos : Tag) :
    (∃ m k, muCorr .idealGas a eos = .ok m ∧ kCorr .idealGas a eos = .ok k ∧ Belongs .g m ∧ Belongs .g k ∧ m ≠ k) ∧
    (∃ m k, muCorr .excessLiquid a eos = .ok m ∧ kCorr .excessLiquid a eos = .ok k ∧ Belongs .l m ∧ Belongs .l k ∧ m ≠ k) ∧
    sigmaCorr .idealGas none = .ok none ∧ ∃ s, sigmaCorr .excessLiquid none = .ok (some s) ∧ Belongs .l s :=
  ⟨⟨_, _, rfl, rfl, .mug, .kg, nofun⟩, ⟨_, _, rfl, rfl, .mul, .kl, nofun⟩, rfl, _, rfl, .sl⟩

/-- **C162 fails.** An unmarked `CEOSGas` whose equation of state has only a liquid volume takes viscosity and conductivity from liquid
correlations but has no surface tension, and the other way round for a `CEOSLiquid` with only a gas volume. -/
theorem C162_unmarked_fails :
    (muCorr .ceosGas none .l = .ok .muLiquid ∧ kCorr .ceosGas none .l = .ok .kLiquid ∧ sigmaCorr .ceosGas none = .ok none) ∧
    (muCorr .ceosLiquid none .g = .ok .muGas ∧ kCorr .ceosLiquid none .g = .ok .kGas ∧
      sigmaCorr .ceosLiquid none = .ok (some .sigma)) :=
  ⟨⟨rfl, rfl, rfl⟩, rfl, rfl, rfl⟩

/-- **C162 fails.** A cubic phase marked as solid has the viscosity of a liquid, while conductivity and surface tension read a variable
that no branch has assigned. -/
theorem C162_solid_mark_fails (gas : Bool) (eos : Tag) :
    muCorr (if gas then .ceosGas else .ceosLiquid) (some .s) eos = .ok .muLiquid ∧
    kCorr (if gas then .ceosGas else .ceosLiquid) (some .s) eos = .error .unbound ∧
    sigmaCorr (if gas then .ceosGas else .ceosLiquid) (some .s) = .error .unbound := by
  cases gas <;> exact ⟨rfl, rfl, rfl⟩

/-- **C162 fails.** Activity coefficient solids report viscosity and conductivity of the liquid, although they are no liquid for the
surface tension. -/
theorem C162_solid_fails (eos : Tag) :
    muCorr .excessSolid none eos = .ok .muLiquid ∧ kCorr .excessSolid none eos = .ok .kLiquid ∧ sigmaCorr .excessSolid none = .ok none :=
  ⟨rfl, rfl, rfl⟩

/-- **C162 fails.** Virial gases have a viscosity but no conductivity, the call raises `AttributeError`. -/
theorem C162_virial_fails (a : Option Tag) (eos : Tag) :
    muCorr .virialGas a eos = .ok .muGas ∧ kCorr .virialGas a eos = .error .missing := ⟨rfl, rfl⟩

/-- **C162 fails.** An ideal gas marked as liquid has the viscosity of a gas and the surface tension of a liquid; an activity coefficient
liquid marked as gas the viscosity of a liquid and no surface tension. -/
theorem C162_ignored_fails (eos : Tag) :
    (muCorr .idealGas (some .l) eos = .ok .muGas ∧ sigmaCorr .idealGas (some .l) = .ok (some .sigma)) ∧
    (muCorr .excessLiquid (some .g) eos = .ok .muLiquid ∧ sigmaCorr .excessLiquid (some .g) = .ok none) := ⟨⟨rfl, rfl⟩, rfl, rfl⟩

/-- Classes in none of the tuples refuse the viscosity and do not have a conductivity. -/
theorem C162_refused (a : Option Tag) (eos : Tag) :
    muCorr .other a eos = .error .notImplemented ∧ kCorr .other a eos = .error .missing := ⟨rfl, rfl⟩

/-! ## Stored values -/

/-- A value of a property: a number or `None`. -/
abbrev Val := Option ℝ

/-- The attributes of a phase object that the methods read and write. -/
structure Obj where
  cls : Cls
  eos : Tag
  assigned : Option Tag
  muMemo : Option Val
  kMemo : Option Val
  sigmaMemo : Option Val

/-- `VirialGas` and other classes have the method of `Phase`, which stores nothing (phase.py 5091-5097). -/
def Cls.storesMu : Cls → Bool
  | .virialGas | .other => false
  | _ => true

/-- `mu()`. -/
def mu (v : Corr → Val) (o : Obj) : Except Err Val × Obj :=
  match o.muMemo with
  | some x => (.ok x, o)
  | none => match muCorr o.cls o.assigned o.eos with
    | .ok c => (.ok (v c), if o.cls.storesMu then { o with muMemo := some (v c) } else o)
    | .error e => (.error e, o)

/-- `k()`. -/
def k (v : Corr → Val) (o : Obj) : Except Err Val × Obj :=
  match o.kMemo with
  | some x => (.ok x, o)
  | none => match kCorr o.cls o.assigned o.eos with
    | .ok c => (.ok (v c), { o with kMemo := some (v c) })
    | .error e => (.error e, o)

/-- `sigma()`. -/
def sigma (v : Corr → Val) (o : Obj) : Except Err Val × Obj :=
  match o.sigmaMemo with
  | some x => (.ok x, o)
  | none => match sigmaCorr o.cls o.assigned with
    | .ok (some c) => (.ok (v c), { o with sigmaMemo := some (v c) })
    | .ok none => (.ok none, o)
    | .error e => (.error e, o)

/-- Calls of the three methods. -/
inductive Call | mu | k | sigma

/-- One call. -/
def call (v : Corr → Val) (o : Obj) : Call → Except Err Val × Obj
  | .mu => mu v o
  | .k => k v o
  | .sigma => sigma v o

/-- A new object, as every `to…` method makes it. -/
def fresh (c : Cls) (eos : Tag) (a : Option Tag) : Obj := ⟨c, eos, a, none, none, none⟩

/-- The object after some calls. -/
def after (v : Corr → Val) (o : Obj) (cs : List Call) : Obj := cs.foldl (fun o c => (call v o c).2) o

/-- What the three methods are supposed to answer, without stored values. -/
def answer (v : Corr → Val) (c : Cls) (eos : Tag) (a : Option Tag) : Call → Except Err Val
  | .mu => (muCorr c a eos).map v
  | .k => (kCorr c a eos).map v
  | .sigma => (sigmaCorr c a).map fun s => s.bind v

/-- Stored values agree with what would be computed. -/
def Sound (v : Corr → Val) (o : Obj) : Prop :=
  (∀ x, o.muMemo = some x → (muCorr o.cls o.assigned o.eos).map v = .ok x) ∧
  (∀ x, o.kMemo = some x → (kCorr o.cls o.assigned o.eos).map v = .ok x) ∧
  (∀ x, o.sigmaMemo = some x → (sigmaCorr o.cls o.assigned).map (fun s => s.bind v) = .ok x)

theorem call_sound (v : Corr → Val) (o : Obj) (h : Sound v o) (c : Call) :
    (call v o c).1 = answer v o.cls o.eos o.assigned c ∧ Sound v (call v o c).2 ∧ (call v o c).2.cls = o.cls ∧
    (call v o c).2.eos = o.eos ∧ (call v o c).2.assigned = o.assigned := by
  obtain ⟨h1, h2, h3⟩ := h
  cases c
  · show (mu v o).1 = (muCorr o.cls o.assigned o.eos).map v ∧ Sound v (mu v o).2 ∧ (mu v o).2.cls = o.cls ∧
      (mu v o).2.eos = o.eos ∧ (mu v o).2.assigned = o.assigned
    unfold mu
    cases hm : o.muMemo with
    | some x => exact ⟨(h1 x hm).symm, ⟨h1, h2, h3⟩, rfl, rfl, rfl⟩
    | none =>
      cases hc : muCorr o.cls o.assigned o.eos with
      | error e => exact ⟨rfl, ⟨h1, h2, h3⟩, rfl, rfl, rfl⟩
      | ok d =>
        dsimp only
        by_cases hs : o.cls.storesMu
        · rw [if_pos hs]
          refine ⟨rfl, ⟨fun x hx => ?_, h2, h3⟩, rfl, rfl, rfl⟩
          have := Option.some.inj hx
          subst this
          show (muCorr o.cls o.assigned o.eos).map v = _
          rw [hc]
          rfl
        · rw [if_neg hs]
          exact ⟨rfl, ⟨h1, h2, h3⟩, rfl, rfl, rfl⟩
  · show (k v o).1 = (kCorr o.cls o.assigned o.eos).map v ∧ Sound v (k v o).2 ∧ (k v o).2.cls = o.cls ∧
      (k v o).2.eos = o.eos ∧ (k v o).2.assigned = o.assigned
    unfold k
    cases hm : o.kMemo with
    | some x => exact ⟨(h2 x hm).symm, ⟨h1, h2, h3⟩, rfl, rfl, rfl⟩
    | none =>
      cases hc : kCorr o.cls o.assigned o.eos with
      | error e => exact ⟨rfl, ⟨h1, h2, h3⟩, rfl, rfl, rfl⟩
      | ok d =>
        refine ⟨rfl, ⟨h1, fun x hx => ?_, h3⟩, rfl, rfl, rfl⟩
        have := Option.some.inj hx
        subst this
        show (kCorr o.cls o.assigned o.eos).map v = _
        rw [hc]
        rfl
  · show (sigma v o).1 = (sigmaCorr o.cls o.assigned).map (fun s => s.bind v) ∧ Sound v (sigma v o).2 ∧
      (sigma v o).2.cls = o.cls ∧ (sigma v o).2.eos = o.eos ∧ (sigma v o).2.assigned = o.assigned
    unfold sigma
    cases hm : o.sigmaMemo with
    | some x => exact ⟨(h3 x hm).symm, ⟨h1, h2, h3⟩, rfl, rfl, rfl⟩
    | none =>
      cases hc : sigmaCorr o.cls o.assigned with
      | error e => exact ⟨rfl, ⟨h1, h2, h3⟩, rfl, rfl, rfl⟩
      | ok d =>
        cases d with
        | none => exact ⟨rfl, ⟨h1, h2, h3⟩, rfl, rfl, rfl⟩
        | some d =>
          refine ⟨rfl, ⟨h1, h2, fun x hx => ?_⟩, rfl, rfl, rfl⟩
          have := Option.some.inj hx
          subst this
          show (sigmaCorr o.cls o.assigned).map (fun s => s.bind v) = _
          rw [hc]
          rfl

/-- As long as the mark of a phase does not change, every call answers what a new object would answer, whatever was called before. -/
theorem C162_order_partial (v : Corr → Val) (c : Cls) (eos : Tag) (a : Option Tag) (cs : List Call) (q : Call) :
    (call v (after v (fresh c eos a) cs) q).1 = answer v c eos a q := by
  have key : ∀ (cs : List Call) (o : Obj), Sound v o → Sound v (after v o cs) ∧ (after v o cs).cls = o.cls ∧
      (after v o cs).eos = o.eos ∧ (after v o cs).assigned = o.assigned := by
    intro cs
    induction cs with
    | nil => intro o h; exact ⟨h, rfl, rfl, rfl⟩
    | cons d ds ih =>
      intro o h
      obtain ⟨-, h1, h2, h3, h4⟩ := call_sound v o h d
      obtain ⟨i1, i2, i3, i4⟩ := ih _ h1
      exact ⟨i1, i2.trans h2, i3.trans h3, i4.trans h4⟩
  obtain ⟨h1, h2, h3, h4⟩ := key cs (fresh c eos a) ⟨nofun, nofun, nofun⟩
  rw [(call_sound v _ h1 q).1, h2, h3, h4]
  rfl

/-! ## Marks -/

/-- The marks that `EquilibriumState.__init__` leaves on phase objects, given by numbers (equilibrium.py 284-315): the gas first, then each
liquid; solids are not marked (319-325). -/
def mark (gas : Option ℕ) (liquids : List ℕ) (h : ℕ → Obj) : ℕ → Obj := fun i =>
  if i ∈ liquids then { h i with assigned := some .l }
  else if gas = some i then { h i with assigned := some .g } else h i

/-- Afterwards liquids are marked as liquid, a gas that is not also a liquid as gas, and no other object changes. -/
theorem C162_mark (gas : Option ℕ) (liquids : List ℕ) (h : ℕ → Obj) :
    (∀ i ∈ liquids, (mark gas liquids h i).assigned = some .l) ∧
    (∀ i, gas = some i → i ∉ liquids → (mark gas liquids h i).assigned = some .g) ∧
    (∀ i, gas ≠ some i → i ∉ liquids → mark gas liquids h i = h i) ∧
    ∀ i, (mark gas liquids h i).cls = (h i).cls ∧ (mark gas liquids h i).eos = (h i).eos ∧
      (mark gas liquids h i).muMemo = (h i).muMemo ∧ (mark gas liquids h i).kMemo = (h i).kMemo ∧
      (mark gas liquids h i).sigmaMemo = (h i).sigmaMemo := by
  refine ⟨fun i hi => ?_, fun i hi hl => ?_, fun i hi hl => ?_, fun i => ?_⟩
  · unfold mark
    rw [if_pos hi]
  · unfold mark
    rw [if_neg hl, if_pos hi]
  · unfold mark
    rw [if_neg hl, if_neg hi]
  · unfold mark
    by_cases h1 : i ∈ liquids
    · rw [if_pos h1]; exact ⟨rfl, rfl, rfl, rfl, rfl⟩
    · by_cases h2 : gas = some i
      · rw [if_neg h1, if_pos h2]; exact ⟨rfl, rfl, rfl, rfl, rfl⟩
      · rw [if_neg h1, if_neg h2]; exact ⟨rfl, rfl, rfl, rfl, rfl⟩

/-- Objects that are new when the state is made answer as gas and liquid of that state. -/
theorem C162_state (v : Corr → Val) (g : ℕ) (liquids : List ℕ) (h : ℕ → Obj) (c : Cls) (eos : Tag)
    (hc : c = .ceosGas ∨ c = .ceosLiquid) :
    (g ∉ liquids → h g = fresh c eos none →
      (mu v (mark (some g) liquids h g)).1 = .ok (v .muGas) ∧ (k v (mark (some g) liquids h g)).1 = .ok (v .kGas) ∧
      (sigma v (mark (some g) liquids h g)).1 = .ok none) ∧
    ∀ i ∈ liquids, h i = fresh c eos none →
      (mu v (mark (some g) liquids h i)).1 = .ok (v .muLiquid) ∧ (k v (mark (some g) liquids h i)).1 = .ok (v .kLiquid) ∧
      (sigma v (mark (some g) liquids h i)).1 = .ok (v .sigma) := by
  refine ⟨fun hg hf => ?_, fun i hi hf => ?_⟩
  · have : mark (some g) liquids h g = fresh c eos (some .g) := by
      unfold mark
      rw [if_neg hg, if_pos rfl, hf]
      rfl
    rw [this]
    rcases hc with rfl | rfl <;> exact ⟨rfl, rfl, rfl⟩
  · have : mark (some g) liquids h i = fresh c eos (some .l) := by
      unfold mark
      rw [if_pos hi, hf]
      rfl
    rw [this]
    rcases hc with rfl | rfl <;> exact ⟨rfl, rfl, rfl⟩

example : ∃ h : ℕ → Obj, (0 ∉ [1]) ∧ h 0 = fresh .ceosGas .lg none ∧ h 1 = fresh .ceosLiquid .lg none :=
  ⟨fun i => if i = 0 then fresh .ceosGas .lg none else fresh .ceosLiquid .lg none, by simp, rfl, rfl⟩

/-- **C162 fails.** A phase that was asked for its viscosity before it became the liquid of a state keeps the viscosity of the gas, while
its conductivity and surface tension are those of the liquid. -/
theorem C162_stale_fails (v : Corr → Val) (h : ℕ → Obj) (h0 : h 0 = (mu v (fresh .ceosGas .lg none)).2) :
    (mu v (mark none [0] h 0)).1 = .ok (v .muGas) ∧ (k v (mark none [0] h 0)).1 = .ok (v .kLiquid) ∧
    (sigma v (mark none [0] h 0)).1 = .ok (v .sigma) := by
  have : mark none [0] h 0 = { (mu v (fresh .ceosGas .lg none)).2 with assigned := some .l } := by
    unfold mark
    rw [if_pos (by simp), h0]
  rw [this]
  exact ⟨rfl, rfl, rfl⟩

/-- **C162 fails.** One object that is the liquid of one state and the gas of a later one keeps the surface tension it was asked for in
between; asked only afterwards it has none. -/
theorem C162_shared_fails (v : Corr → Val) (h : ℕ → Obj) (hf : h 0 = fresh .ceosLiquid .lg none) :
    (sigma v { (sigma v (mark none [0] h 0)).2 with assigned := some .g }).1 = .ok (v .sigma) ∧
    (sigma v (mark (some 0) [] (mark none [0] h) 0)).1 = .ok none := by
  have h1 : mark none [0] h 0 = fresh .ceosLiquid .lg (some .l) := by
    unfold mark
    rw [if_pos (by simp), hf]
    rfl
  have h2 : mark (some 0) [] (mark none [0] h) 0 = fresh .ceosLiquid .lg (some .g) := by
    rw [show mark (some 0) [] (mark none [0] h) 0 = { mark none [0] h 0 with assigned := some .g } from rfl, h1]
    rfl
  rw [h1, h2]
  exact ⟨rfl, rfl⟩

/-! ## Derived numbers -/

/-- `nu` of a phase (phase.py 5111-5114). -/
noncomputable def nu (mu : Val) (rho : ℝ) : Val := mu.map fun m => m / rho

/-- `thermal_diffusivity` of `chemicals` applied by `alpha` (phase.py 5133-5136); the outer `none` is the `TypeError` for a missing
conductivity. -/
noncomputable def alpha (k : Val) (rho Cp : ℝ) : Option ℝ := k.map fun k => k / (rho * Cp)

/-- `Prandtl` (phase.py 2667); `none` is an exception: a missing viscosity or conductivity or a conductivity of zero. -/
noncomputable def prandtl (mu k : Val) (Cp : ℝ) : Option ℝ :=
  mu.bind fun m => k.bind fun k => if k = 0 then none else some (Cp * m / k)

/-- The Prandtl number is the ratio of kinematic viscosity and thermal diffusivity, as documented. -/
theorem C162_prandtl {mu k : Val} {rho Cp p : ℝ} (hr : rho ≠ 0) (hC : Cp ≠ 0) (h : prandtl mu k Cp = some p) :
    ∃ n a, nu mu rho = some n ∧ alpha k rho Cp = some a ∧ p = n / a ∧ p * a = n ∧ ∃ k', k = some k' ∧ p = Cp * rho * n / k' := by
  unfold prandtl at h
  cases mu with
  | none => simp at h
  | some m =>
    cases k with
    | none => simp at h
    | some k =>
      simp only [Option.bind_some] at h
      split_ifs at h with hk
      have := Option.some.inj h
      subst this
      refine ⟨m / rho, k / (rho * Cp), rfl, rfl, ?_, ?_, k, rfl, ?_⟩
      · field_simp
      · field_simp
      · field_simp

/-- It exists exactly when both are known and the conductivity is not zero. -/
theorem C162_prandtl_exists (mu k : Val) (Cp : ℝ) :
    (prandtl mu k Cp).isSome ↔ mu ≠ none ∧ ∃ k', k = some k' ∧ k' ≠ 0 := by
  unfold prandtl
  cases mu with
  | none => simp
  | some m =>
    cases k with
    | none => simp
    | some k =>
      simp only [Option.bind_some]
      by_cases hk : k = 0
      · rw [if_pos hk]; simp [hk]
      · rw [if_neg hk]; simp [hk]

/-- Air at room conditions, about. -/
example : prandtl (some 18) (some 26) 1 = some (18 / 26) ∧ nu (some 18) 2 = some 9 ∧ alpha (some 26) 2 1 = some 13 := by
  refine ⟨?_, ?_, ?_⟩
  · simp [prandtl]
  · simp [nu]; norm_num
  · simp [alpha]; norm_num

/-- The kinematic viscosity of a phase is unknown exactly when the viscosity is, and multiplied with the density it is the viscosity. -/
theorem C162_nu (mu : Val) {rho : ℝ} (hr : rho ≠ 0) :
    (nu mu rho = none ↔ mu = none) ∧ (nu mu rho).map (· * rho) = mu := by
  cases mu with
  | none => exact ⟨⟨fun _ => rfl, fun _ => rfl⟩, rfl⟩
  | some m =>
    refine ⟨⟨nofun, nofun⟩, ?_⟩
    show some (m / rho * rho) = some m
    rw [div_mul_cancel₀ m hr]

/-- `nu` of an equilibrium state (equilibrium.py 1974): division of `None` raises, the outer `none`. -/
noncomputable def nuState (mu : Val) (rho : ℝ) : Option Val := mu.map fun m => some (m / rho)

/-- The equilibrium state and the phase agree on known viscosities. -/
theorem C162_nu_state (m rho : ℝ) : nuState (some m) rho = some (nu (some m) rho) := rfl

/-- **C162 fails.** When the viscosity is unknown the phase answers `None` while the state and, for an unknown conductivity, the thermal
diffusivity raise. -/
theorem C162_unknown_fails (rho Cp : ℝ) : nu none rho = none ∧ nuState none rho = none ∧ nuState none rho ≠ some (nu none rho) ∧
    alpha none rho Cp = none ∧ prandtl none (some 1) Cp = none := ⟨rfl, rfl, nofun, rfl, rfl⟩

/-- **C162 fails.** After a viscosity that was asked for too early, the Prandtl number of a liquid is the viscosity of the gas over the
conductivity of the liquid. -/
theorem C162_mixed_fails : ∃ (v : Corr → Val) (h : ℕ → Obj) (Cp : ℝ), h 0 = (mu v (fresh .ceosGas .lg none)).2 ∧
    ∃ m k', (mu v (mark none [0] h 0)).1 = .ok m ∧ (k v (mark none [0] h 0)).1 = .ok k' ∧ prandtl m k' Cp = some 1 ∧
      prandtl (v .muLiquid) (v .kLiquid) Cp = some 5 := by
  refine ⟨fun c => match c with | .muGas => some 1 | .muLiquid => some 5 | .kGas => some 2 | .kLiquid => some 4 | .sigma => some 1,
    fun _ => (mu _ (fresh .ceosGas .lg none)).2, 4, rfl, some 1, some 4, ?_, ?_, ?_, ?_⟩
  · exact (C162_stale_fails _ _ rfl).1
  · exact (C162_stale_fails _ _ rfl).2.1
  · simp [prandtl]
  · simp [prandtl]

end Verif.Transport
