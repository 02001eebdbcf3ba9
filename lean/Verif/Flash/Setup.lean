import Verif.Flash.Dispatch
import Mathlib.Analysis.SpecialFunctions.Log.Base
import Mathlib.Analysis.SpecialFunctions.Pow.Real

/-!
# Making flash objects, saturation of one component and grids (`thermo/flash/flash_pure_vls.py`, `flash_base.py`, `flash_vl.py`)

* C143: which special cases `FlashPureVLS` recognises (flash_pure_vls.py 264-337), what is checked of the phases (flash_base.py 859-888, flash_vl.py 331-354), saturation at given temperature or
  pressure (flash_pure_vls.py 470-591), temperatures, pressures and volumes of grids (flash_base.py 622-740) and properties on grids (1039-1074, 1120-1152), liquid volumes and the index of water
  (1931-1976).

Simplified: a phase is its class with what the tests read. Vapor pressures are functions, their inverses and the solvers partial functions with the contracts stated. `logspace` is exact.
-/

namespace Verif.Setup

open Verif.FlashDispatch (Var)

/-! ## Special cases -/

/-- Classes of gases; `e` numbers the mixture equations of state, 0 is `IGMIX`. The last stands for classes without `eos_class`, as `VirialGas`. -/
inductive Gas
  | ideal | ceos (e : ℕ) | iapws | air | coolprop (backend fluid : String) | other
deriving DecidableEq

/-- Classes of liquids. `GibbsExcessLiquid` is `activity`. -/
inductive Liq
  | ceos (e : ℕ) | activity | iapws | coolprop (backend fluid : String) | other
deriving DecidableEq

/-- What `FlashPureVLS` is made of; `hacks` is `VL_EOS_hacks`. -/
structure Pkg where
  gas : Option Gas
  liquids : List Liq
  solids : ℕ
  hacks : Bool

/-- `eos_class`; `none` raises. -/
def eosClass : Gas → Option ℕ
  | .ceos e => some e
  | _ => none

/-- `phase_count` (270-280). -/
def phaseCount (p : Pkg) : ℕ := (if p.gas.isSome then 1 else 0) + p.liquids.length + p.solids

/-- `supports_VF_flash`, `supports_SF_flash` (275-276). -/
def supports (p : Pkg) : Bool × Bool :=
  let g := if p.gas.isSome then 1 else 0
  (decide (g ≠ 0 ∧ p.liquids.length ≠ 0), decide ((g ≠ 0 ∨ p.liquids.length ≠ 0) ∧ p.solids ≠ 0))

/-- A phase by its place: the order of `phases` (282-287). -/
inductive Place | gas | liquid (i : ℕ) | solid (i : ℕ)
deriving DecidableEq

@[inherit_doc Place] def phases (p : Pkg) : List Place :=
  (if p.gas.isSome then [.gas] else []) ++ (List.range p.liquids.length).map .liquid ++ (List.range p.solids).map .solid

/-- The flags. -/
structure Flags where
  (VL cubics iapws air cubicsSame coolprop activity : Bool)
deriving DecidableEq

/-- `VL_only_CEOSs` (295-300). -/
def cubics (p : Pkg) : Bool :=
  decide (phaseCount p = 2 ∧ p.liquids.length = 1 ∧ p.gas.isSome) && match p.gas, p.liquids with
    | some (.ceos _), .ceos _ :: _ => true
    | _, _ => false

/-- `VL_only_CEOSs_same` (315-320). The phases, not their equations, are compared with `IGMIX` in 318-319: no phase is one. -/
def cubicsSame (p : Pkg) : Bool :=
  cubics p && p.hacks && match p.gas, p.liquids with
    | some (.ceos e), .ceos f :: _ => e == f
    | _, _ => false

/-- `VL_only_CoolProp` (322-326). -/
def coolprop (p : Pkg) : Bool :=
  match p.gas, p.liquids with
  | some (.coolprop b f), [.coolprop b' f'] => p.solids == 0 && b' == b && f' == f
  | _, _ => false

/-- `VL_only_IAPWS95` (302-307). -/
def iapws (p : Pkg) : Bool :=
  match p.gas, p.liquids with
  | some .iapws, [.iapws] => p.solids == 0
  | _, _ => false

/-- `V_only_lemmon2000` (309-312). -/
def air (p : Pkg) : Bool :=
  match p.gas, p.liquids with
  | some .air, [] => p.solids == 0
  | _, _ => false

/-- `VL_IG_activity` (328-331): `gas.eos_class` is read for every gas that is not `IdealGas`, also `None`. `none` raises. -/
def activity (p : Pkg) : Option Bool :=
  match p.liquids with
  | [.activity] => match p.gas with
    | some .ideal => some (p.solids == 0)
    | some g => (eosClass g).map fun e => e == 0 && p.solids == 0
    | none => none
  | _ => some false

/-- `_finish_initialization` (295-331); `none` is `AttributeError`. -/
def flags (p : Pkg) : Option Flags :=
  (activity p).map fun a => ⟨decide (phaseCount p = 2 ∧ p.liquids.length = 1 ∧ p.gas.isSome), cubics p, iapws p, air p, cubicsSame p, coolprop p, a⟩

/-- **C143.** All phases are listed once, the gas first, then liquids and solids; flashes with a vapor fraction are allowed exactly with a gas and a liquid, with a solid fraction exactly with a solid and a
fluid. -/
theorem C143_phases (p : Pkg) : (phases p).length = phaseCount p ∧ (phases p).Nodup ∧ (Place.gas ∈ phases p ↔ p.gas ≠ none) ∧ (∀ i, Place.liquid i ∈ phases p ↔ i < p.liquids.length)
    ∧ (∀ i, Place.solid i ∈ phases p ↔ i < p.solids) ∧ (p.gas ≠ none → (phases p).head? = some .gas)
    ∧ ((supports p).1 = true ↔ p.gas ≠ none ∧ p.liquids ≠ []) ∧ ((supports p).2 = true ↔ (p.gas ≠ none ∨ p.liquids ≠ []) ∧ p.solids ≠ 0) := by
  obtain ⟨g, l, s, h⟩ := p
  have n1 : (List.map Place.liquid (List.range l.length)).Nodup := List.Nodup.map (fun a b h => by injection h) List.nodup_range
  have n2 : (List.map Place.solid (List.range s)).Nodup := List.Nodup.map (fun a b h => by injection h) List.nodup_range
  rcases g with _ | g
  · refine ⟨by simp [phases, phaseCount], ?_, by simp [phases], by simp [phases], by simp [phases], by simp, by simp [supports], by simp [supports]⟩
    simp only [phases, Option.isSome_none, Bool.false_eq_true, if_false, List.nil_append]
    refine List.nodup_append.mpr ⟨n1, n2, ?_⟩
    intro a ha b hb
    simp only [List.mem_map] at ha hb
    obtain ⟨i, -, rfl⟩ := ha
    obtain ⟨j, -, rfl⟩ := hb
    simp
  · refine ⟨by simp [phases, phaseCount]; ring, ?_, by simp [phases], by simp [phases], by simp [phases], by simp [phases], by simp [supports], by simp [supports]⟩
    simp only [phases, Option.isSome_some, if_true, List.cons_append, List.nil_append]
    refine List.nodup_cons.mpr ⟨by simp, List.nodup_append.mpr ⟨n1, n2, ?_⟩⟩
    intro a ha b hb
    simp only [List.mem_map] at ha hb
    obtain ⟨i, -, rfl⟩ := ha
    obtain ⟨j, -, rfl⟩ := hb
    simp

example : (⟨some .ideal, [.activity, .other], 1, true⟩ : Pkg).gas ≠ none := by simp

/-- **C143.** Each special case is recognised exactly for one gas and one liquid of its classes without solids: two cubic phases of the same equation, the two IAPWS phases, CoolProp phases of the same fluid, an
activity liquid with an ideal gas. -/
theorem C143_flags (p : Pkg) (f : Flags) (h : flags p = some f) :
    (f.cubicsSame = true ↔ p.hacks = true ∧ p.solids = 0 ∧ ∃ e, p.gas = some (.ceos e) ∧ p.liquids = [.ceos e])
    ∧ (f.iapws = true ↔ p.solids = 0 ∧ p.gas = some .iapws ∧ p.liquids = [.iapws])
    ∧ (f.coolprop = true ↔ p.solids = 0 ∧ ∃ b n, p.gas = some (.coolprop b n) ∧ p.liquids = [.coolprop b n])
    ∧ (f.activity = true ↔ p.solids = 0 ∧ p.liquids = [.activity] ∧ (p.gas = some .ideal ∨ p.gas = some (.ceos 0)))
    ∧ (f.air = true ↔ p.solids = 0 ∧ p.gas = some .air ∧ p.liquids = []) ∧ (f.VL = true ↔ p.solids = 0 ∧ p.gas ≠ none ∧ p.liquids.length = 1) := by
  obtain ⟨g, l, s, hk⟩ := p
  unfold flags at h
  obtain ⟨a, ha, rfl⟩ := Option.map_eq_some_iff.mp h
  refine ⟨?_, ?_, ?_, ?_, ?_, ?_⟩
  · rcases g with _ | g
    · simp [cubicsSame, cubics]
    · rcases l with _ | ⟨x, l⟩
      · simp [cubicsSame, cubics]
      · rcases l with _ | ⟨y, l⟩
        · cases g <;> cases x <;> simp [cubicsSame, cubics, phaseCount]
          rename_i e f
          constructor
          · rintro ⟨⟨a, b⟩, rfl⟩; exact ⟨b, a, rfl⟩
          · rintro ⟨b, a, rfl⟩; exact ⟨⟨a, b⟩, rfl⟩
        · cases g <;> cases x <;> simp [cubicsSame, cubics, phaseCount]
  · rcases g with _ | g
    · simp [iapws]
    · rcases l with _ | ⟨x, l⟩
      · simp [iapws]
      · rcases l with _ | ⟨y, l⟩
        · cases g <;> cases x <;> simp [iapws]
        · cases g <;> cases x <;> simp [iapws]
  · rcases g with _ | g
    · simp [coolprop]
    · rcases l with _ | ⟨x, l⟩
      · simp [coolprop]
      · rcases l with _ | ⟨y, l⟩
        · cases g <;> cases x <;> simp [coolprop]
          rename_i b f b' f'
          constructor
          · rintro ⟨⟨a, rfl⟩, rfl⟩; exact ⟨a, rfl, rfl⟩
          · rintro ⟨a, rfl, rfl⟩; exact ⟨⟨a, rfl⟩, rfl⟩
        · cases g <;> cases x <;> simp [coolprop]
  · rcases l with _ | ⟨x, l⟩
    · simp [activity] at ha; subst ha; simp
    · rcases l with _ | ⟨y, l⟩
      · cases x <;> simp [activity] at ha <;> try (subst ha; simp)
        rcases g with _ | g
        · simp at ha
        · cases g <;> simp [eosClass] at ha <;> subst ha <;> simp [and_comm]
      · simp [activity] at ha; subst ha; simp
  · rcases g with _ | g
    · simp [air]
    · rcases l with _ | ⟨x, l⟩ <;> cases g <;> simp [air]
  · rcases g with _ | g
    · simp
    · simp [phaseCount]
      omega

example : flags ⟨some (.ceos 1), [.ceos 1], 0, true⟩ = some ⟨true, true, false, false, true, false, false⟩ ∧ flags ⟨some .ideal, [.activity], 0, true⟩ = some ⟨true, false, false, false, false, false, true⟩ :=
  ⟨rfl, rfl⟩

/-- **C143.** At most one of the special cases with a liquid is recognised. -/
theorem C143_exclusive (p : Pkg) (f : Flags) (h : flags p = some f) :
    (f.cubicsSame = true → f.iapws = false ∧ f.coolprop = false ∧ f.activity = false) ∧ (f.iapws = true → f.coolprop = false ∧ f.activity = false) ∧ (f.coolprop = true → f.activity = false) := by
  obtain ⟨a, b, c, d, -, -⟩ := C143_flags p f h
  refine ⟨fun x => ?_, fun x => ?_, fun x => ?_⟩
  · obtain ⟨-, -, e, hg, hl⟩ := a.mp x
    refine ⟨?_, ?_, ?_⟩ <;> rw [Bool.eq_false_iff] <;> intro hh
    · have := (b.mp hh).2.1; rw [hg] at this; cases this
    · obtain ⟨-, _, _, hg', -⟩ := c.mp hh; rw [hg] at hg'; cases hg'
    · have := (d.mp hh).2.1; rw [hl] at this; cases this
  · obtain ⟨-, hg, hl⟩ := b.mp x
    refine ⟨?_, ?_⟩ <;> rw [Bool.eq_false_iff] <;> intro hh
    · obtain ⟨-, _, _, hg', -⟩ := c.mp hh; rw [hg] at hg'; cases hg'
    · have := (d.mp hh).2.1; rw [hl] at this; cases this
  · obtain ⟨-, _, _, hg, hl⟩ := c.mp x
    rw [Bool.eq_false_iff]; intro hh
    have := (d.mp hh).2.1; rw [hl] at this; cases this

example : flags ⟨some .iapws, [.iapws], 0, true⟩ = some ⟨true, false, true, false, false, false, false⟩ := rfl

/-- **C143 fails.** An object with one activity liquid cannot be made without a gas, nor with a gas that is neither ideal nor cubic, as a virial gas. -/
theorem C143_make_fails (s : ℕ) (k : Bool) : flags ⟨none, [.activity], s, k⟩ = none ∧ flags ⟨some .other, [.activity], s, k⟩ = none ∧ flags ⟨some .iapws, [.activity], s, k⟩ = none := ⟨rfl, rfl, rfl⟩

/-- **C143, partial.** All other combinations are accepted. -/
theorem C143_make_partial (p : Pkg) : flags p = none ↔ p.liquids = [.activity] ∧ p.gas ≠ some .ideal ∧ ∀ e, p.gas ≠ some (.ceos e) := by
  obtain ⟨g, l, s, k⟩ := p
  unfold flags
  rw [Option.map_eq_none_iff]
  rcases l with _ | ⟨x, l⟩
  · simp [activity]
  · rcases l with _ | ⟨y, l⟩
    · cases x <;> simp [activity]
      rcases g with _ | g
      · simp
      · cases g <;> simp [eosClass]
    · simp [activity]

example : (⟨none, [.activity], 0, true⟩ : Pkg).liquids = [.activity] := rfl

/-- **C143 fails.** Two phases of the ideal gas equation are taken for cubic phases with a saturation pressure, contrary to the test meant to exclude them. -/
theorem C143_ideal_fails : ∃ f, flags ⟨some (.ceos 0), [.ceos 0], 0, true⟩ = some f ∧ f.cubicsSame = true := ⟨_, rfl, rfl⟩

/-! ## What is checked of the phases -/

/-- A phase: constants it belongs to, temperatures it can be flashed at, numpy or not. -/
structure Phase where
  constants : Option ℕ
  (Tmin Tmax : ℚ)
  vectorized : Bool

/-- Lines 882-885 (886-888 for the correlations): constants are stored one phase after the other until one belongs to others. `false` is `ValueError`. -/
def associate (c : ℕ) : List Phase → List Phase × Bool
  | [] => ([], true)
  | p :: t => match p.constants with
    | some c' => if c' = c then let r := associate c t; (p :: r.1, r.2) else (p :: t, false)
    | none => let r := associate c t; ({ p with constants := some c } :: r.1, r.2)

/-- Lines 869-888: temperature limits and the phases afterwards; `none` for phases of both kinds or none at all. -/
def finish (c : ℕ) : List Phase → Option ((ℚ × ℚ) × List Phase × Bool)
  | [] => none
  | p :: t => if (t.all fun q => q.vectorized == p.vectorized) then some (((t.map Phase.Tmin).foldl max p.Tmin, (t.map Phase.Tmax).foldl min p.Tmax), associate c (p :: t)) else none

theorem foldl_max (l : List ℚ) (a : ℚ) : (a ≤ l.foldl max a ∧ ∀ x ∈ l, x ≤ l.foldl max a) ∧ (l.foldl max a = a ∨ l.foldl max a ∈ l) := by
  induction l generalizing a with
  | nil => simp
  | cons b t ih =>
    obtain ⟨⟨h1, h2⟩, h3⟩ := ih (max a b)
    refine ⟨⟨le_trans (le_max_left _ _) h1, ?_⟩, ?_⟩
    · intro x hx
      rcases List.mem_cons.mp hx with rfl | hx
      · exact le_trans (le_max_right _ _) h1
      · exact h2 x hx
    · rcases h3 with h3 | h3
      · rw [List.foldl_cons, h3]
        rcases max_choice a b with h | h <;> rw [h] <;> simp
      · right; simp [h3]

theorem foldl_min (l : List ℚ) (a : ℚ) : (l.foldl min a ≤ a ∧ ∀ x ∈ l, l.foldl min a ≤ x) ∧ (l.foldl min a = a ∨ l.foldl min a ∈ l) := by
  induction l generalizing a with
  | nil => simp
  | cons b t ih =>
    obtain ⟨⟨h1, h2⟩, h3⟩ := ih (min a b)
    refine ⟨⟨le_trans h1 (min_le_left _ _), ?_⟩, ?_⟩
    · intro x hx
      rcases List.mem_cons.mp hx with rfl | hx
      · exact le_trans h1 (min_le_right _ _)
      · exact h2 x hx
    · rcases h3 with h3 | h3
      · rw [List.foldl_cons, h3]
        rcases min_choice a b with h | h <;> rw [h] <;> simp
      · right; simp [h3]

theorem associate_ok (c : ℕ) (l : List Phase) : ((associate c l).2 = true ↔ ∀ p ∈ l, p.constants = none ∨ p.constants = some c)
    ∧ ((associate c l).2 = true → ∀ p ∈ (associate c l).1, p.constants = some c) := by
  induction l with
  | nil => simp [associate]
  | cons p t ih =>
    rcases hp : p.constants with _ | c'
    · simp [associate, hp, ih.1]
      exact fun h q hq => ih.2 (ih.1.mpr h) q hq
    · by_cases hc : c' = c
      · subst hc
        simp [associate, hp, ih.1]
        exact fun h q hq => ih.2 (ih.1.mpr h) q hq
      · simp [associate, hp, hc]

/-- **C143.** The temperatures of an object are those all its phases allow; it is accepted exactly if its phases are of one kind and belong to its constants or none, and then all of them do. -/
theorem C143_finish (c : ℕ) (l : List Phase) :
    (∀ lo hi q ok, finish c l = some ((lo, hi), q, ok) → (∀ T, (lo ≤ T ∧ T ≤ hi) ↔ ∀ p ∈ l, p.Tmin ≤ T ∧ T ≤ p.Tmax)
      ∧ (ok = true ↔ ∀ p ∈ l, p.constants = none ∨ p.constants = some c) ∧ (ok = true → ∀ p ∈ q, p.constants = some c))
    ∧ (finish c l = none ↔ l = [] ∨ ∃ p ∈ l, ∃ q ∈ l, p.vectorized ≠ q.vectorized) := by
  rcases l with _ | ⟨p, t⟩
  · simp [finish]
  · refine ⟨?_, ?_⟩
    · intro lo hi q ok h
      rw [finish] at h
      split_ifs at h
      simp only [Option.some.injEq, Prod.mk.injEq] at h
      obtain ⟨⟨rfl, rfl⟩, h⟩ := h
      have h1 : (associate c (p :: t)).1 = q := by rw [h]
      have h2 : (associate c (p :: t)).2 = ok := by rw [h]
      refine ⟨?_, by rw [← h2]; exact (associate_ok c _).1, by rw [← h2, ← h1]; exact (associate_ok c _).2⟩
      intro T
      obtain ⟨⟨a1, a2⟩, a3⟩ := foldl_max (t.map Phase.Tmin) p.Tmin
      obtain ⟨⟨b1, b2⟩, b3⟩ := foldl_min (t.map Phase.Tmax) p.Tmax
      constructor
      · rintro ⟨h, h'⟩ r hr
        rcases List.mem_cons.mp hr with rfl | hr
        · exact ⟨le_trans a1 h, le_trans h' b1⟩
        · exact ⟨le_trans (a2 _ (List.mem_map_of_mem hr)) h, le_trans h' (b2 _ (List.mem_map_of_mem hr))⟩
      · intro hall
        refine ⟨?_, ?_⟩
        · rcases a3 with a3 | a3
          · rw [a3]; exact (hall p (by simp)).1
          · obtain ⟨r, hr, hrr⟩ := List.mem_map.mp a3
            rw [← hrr]; exact (hall r (by simp [hr])).1
        · rcases b3 with b3 | b3
          · rw [b3]; exact (hall p (by simp)).2
          · obtain ⟨r, hr, hrr⟩ := List.mem_map.mp b3
            rw [← hrr]; exact (hall r (by simp [hr])).2
    · rw [finish]
      by_cases h : (t.all fun q => q.vectorized == p.vectorized) = true
      · rw [if_pos h]
        simp only [reduceCtorEq, false_or, false_iff, not_exists, not_and, not_not]
        rw [List.all_eq_true] at h
        have hv : ∀ r ∈ p :: t, r.vectorized = p.vectorized := by
          intro r hr
          rcases List.mem_cons.mp hr with rfl | hr
          · rfl
          · simpa using h r hr
        exact fun r hr q hq => by rw [hv r hr, hv q hq]
      · rw [if_neg h]
        simp only [reduceCtorEq, false_or, true_iff]
        rw [List.all_eq_true] at h
        push Not at h
        obtain ⟨q, hq, hne⟩ := h
        exact ⟨q, by simp [hq], p, by simp, by simpa using hne⟩

example : finish 1 [⟨none, 10, 500, false⟩, ⟨some 1, 200, 2000, false⟩] = some ((200, 500), [⟨some 1, 10, 500, false⟩, ⟨some 1, 200, 2000, false⟩], true) := by
  norm_num [finish, associate]

/-- **C143 fails.** An object that is refused leaves the phases before the offending one bound to its constants: the same phase is then refused by the object it was made for. -/
theorem C143_refused_fails : ∃ (a b : Phase) (c c' : ℕ), c ≠ c' ∧ a.constants = none ∧ (associate c [a, b]).2 = false ∧ (associate c' [a]).2 = true
    ∧ (associate c' ((associate c [a, b]).1.take 1)).2 = false :=
  ⟨⟨none, 0, 1, false⟩, ⟨some 5, 0, 1, false⟩, 1, 2, by decide, rfl, rfl, rfl, rfl⟩

/-- Exceptions of `FlashVL` (331-350): attributes are read (343-344) before the phases are checked (347-350). -/
inductive Err | attribute | gas | liquid
deriving DecidableEq

/-- `independent`, `basis`: `composition_independent` and `ideal_gas_basis` of the gas, of which a false one keeps the liquid from being read. -/
def flashVL (gas liquid independent basis : Bool) : Option Err :=
  if ¬ gas then some .attribute
  else if independent ∧ ¬ liquid then some .attribute
  else if basis ∧ ¬ liquid then some .attribute
  else if ¬ gas then some .gas
  else if ¬ liquid then some .liquid
  else none

/-- **C143 fails.** A missing gas never raises the message meant for it, and a missing liquid only with a gas without ideal gas basis. An object is made exactly with both phases. -/
theorem C143_missing_fails (g l i b : Bool) : (flashVL g l i b = none ↔ g = true ∧ l = true) ∧ flashVL g l i b ≠ some .gas
    ∧ (flashVL g l i b = some .liquid ↔ g = true ∧ l = false ∧ i = false ∧ b = false) := by
  cases g <;> cases l <;> cases i <;> cases b <;> decide

/-! ## Saturation -/

/-- Which code finds the saturation. -/
inductive Branch | coolprop | activity | iapws | cubic | generic
deriving DecidableEq

/-- The order of `flash_TVF` (484-521). -/
def branchT (f : Flags) : Branch :=
  if f.coolprop then .coolprop else if f.activity then .activity else if f.iapws then .iapws else if f.cubicsSame then .cubic else .generic

/-- The order of `flash_PVF` (525-562). -/
def branchP (f : Flags) : Branch :=
  if f.coolprop then .coolprop else if f.cubicsSame then .cubic else if f.activity then .activity else if f.iapws then .iapws else .generic

/-- **C143.** At given temperature and at given pressure the same code is used. -/
theorem C143_branches (p : Pkg) (f : Flags) (h : flags p = some f) : branchT f = branchP f := by
  obtain ⟨a, b, c⟩ := C143_exclusive p f h
  unfold branchT branchP
  rcases f with ⟨x1, x2, x3, x4, x5, x6, x7⟩
  cases x3 <;> cases x5 <;> cases x6 <;> cases x7 <;> simp_all

/-- What the branches read: vapor pressure of the correlation and of the liquid's own correlation, of the equation of state, of IAPWS; their inverses, `none` where they raise; critical constants; the converged
point of the general solver from a guess, with the compressibilities of liquid and gas. -/
structure Sat where
  (corr liq eos water : ℝ → ℝ)
  corrFails : ℝ → Bool
  (corrInv eosInv waterInv : ℝ → Option ℝ)
  (Tc Pc waterTc waterPc : ℝ)
  (solveT solveP : ℝ → ℝ → Option (ℝ × ℝ × ℝ))

/-- A saturated state: temperature and pressure. -/
structure State where
  (T P : ℝ)

/-- Exceptions: the phase does not exist, another. -/
inductive SErr | impossible | other
deriving DecidableEq

open Classical in
/-- `Psat_guess` (470-480). -/
noncomputable def guess (s : Sat) (b : Branch) (T : ℝ) : ℝ := if b = .cubic then s.eos T else if s.corrFails T then 100000 else s.corr T

/-- **C143.** The general solver starts at the pressure of the correlation, or at 1 bar where it fails, the one for cubic equations at theirs. -/
theorem C143_guess (s : Sat) (b : Branch) (T : ℝ) : (b ≠ .cubic → s.corrFails T = false → guess s b T = s.corr T) ∧ (b ≠ .cubic → s.corrFails T = true → guess s b T = 100000) ∧ guess s .cubic T = s.eos T := by
  unfold guess
  refine ⟨fun h h' => ?_, fun h h' => ?_, by simp⟩ <;> simp [h, h']

open Classical in
/-- `flash_TVF` (482-521) without CoolProp: the state of both phases. The IAPWS phases are made from temperature and density, their pressure is that of the correlation by contract. -/
noncomputable def flashTVF (s : Sat) (b : Branch) (T : ℝ) : Except SErr State :=
  match b with
  | .activity => .ok ⟨T, s.liq T⟩
  | .iapws => if T > s.waterTc then .error .impossible else .ok ⟨T, s.water T⟩
  | .cubic => if T > s.Tc then .error .impossible else .ok ⟨T, s.eos T⟩
  | _ => match s.solveT (guess s b T) T with
    | some (P, Zl, Zg) => if Zl = Zg then .error .impossible else .ok ⟨T, P⟩
    | none => .error .other

open Classical in
/-- `flash_PVF` (523-562) without CoolProp. -/
noncomputable def flashPVF (s : Sat) (b : Branch) (P : ℝ) : Except SErr State :=
  match b with
  | .cubic => if P > s.Pc then .error .impossible else match s.eosInv P with
    | some T => .ok ⟨T, P⟩
    | none => .error .impossible
  | .activity => match s.corrInv P with
    | some T => .ok ⟨T, P⟩
    | none => .error .other
  | .iapws => if P > s.waterPc then .error .impossible else match s.waterInv P with
    | some T => .ok ⟨T, P⟩
    | none => .error .other
  | .coolprop | .generic => match s.corrInv P with
    | some T => match s.solveP T P with
      | some (T', Zl, Zg) => if Zl = Zg then .error .impossible else .ok ⟨T', P⟩
      | none => .error .other
    | none => .error .other

/-- **C143, partial.** The states returned have the temperature or pressure asked for, and the saturation pressure of the model of the branch; above the critical point cubic equations and IAPWS raise. For the general
branch a converged point is refused only if both compressibilities are equal. Missing: the critical point of activity liquids. -/
theorem C143_saturation_partial (s : Sat) (b : Branch) (T P : ℝ) (r : State) :
    (flashTVF s b T = .ok r → r.T = T ∧ (b = .cubic → r.P = s.eos T ∧ T ≤ s.Tc) ∧ (b = .iapws → r.P = s.water T ∧ T ≤ s.waterTc) ∧ (b = .activity → r.P = s.liq T)
      ∧ (b = .generic → ∃ Zl Zg, Zl ≠ Zg ∧ s.solveT (guess s b T) T = some (r.P, Zl, Zg)))
    ∧ (flashPVF s b P = .ok r → r.P = P ∧ (b = .cubic → s.eosInv P = some r.T ∧ P ≤ s.Pc) ∧ (b = .iapws → s.waterInv P = some r.T ∧ P ≤ s.waterPc) ∧ (b = .activity → s.corrInv P = some r.T)
      ∧ (b = .generic → ∃ T0 Zl Zg, Zl ≠ Zg ∧ s.corrInv P = some T0 ∧ s.solveP T0 P = some (r.T, Zl, Zg)))
    ∧ (b = .cubic → (s.Tc < T → flashTVF s b T = .error .impossible) ∧ (s.Pc < P → flashPVF s b P = .error .impossible))
    ∧ (b = .iapws → (s.waterTc < T → flashTVF s b T = .error .impossible) ∧ (s.waterPc < P → flashPVF s b P = .error .impossible)) := by
  refine ⟨?_, ?_, ?_, ?_⟩
  · intro h
    cases b <;> simp only [flashTVF] at h
    · split at h
      · split_ifs at h; cases h; exact ⟨rfl, by simp, by simp, by simp, by simp⟩
      · cases h
    · cases h; exact ⟨rfl, by simp, by simp, by simp, by simp⟩
    · split_ifs at h with hT; cases h; exact ⟨rfl, by simp, by simpa using hT, by simp, by simp⟩
    · split_ifs at h with hT; cases h; exact ⟨rfl, by simpa using hT, by simp, by simp, by simp⟩
    · split at h
      · rename_i P' Zl Zg hs
        split_ifs at h with hZ; cases h
        exact ⟨rfl, by simp, by simp, by simp, fun _ => ⟨Zl, Zg, hZ, hs⟩⟩
      · cases h
  · intro h
    cases b <;> simp only [flashPVF] at h
    · split at h
      · split at h
        · split_ifs at h; cases h; exact ⟨rfl, by simp, by simp, by simp, by simp⟩
        · cases h
      · cases h
    · split at h
      · rename_i T' hT; cases h; exact ⟨rfl, by simp, by simp, by simpa using hT, by simp⟩
      · cases h
    · split_ifs at h with hP
      split at h
      · rename_i T' hT; cases h; exact ⟨rfl, by simp, fun _ => ⟨hT, not_lt.mp hP⟩, by simp, by simp⟩
      · cases h
    · split_ifs at h with hP
      split at h
      · rename_i T' hT; cases h; exact ⟨rfl, fun _ => ⟨hT, not_lt.mp hP⟩, by simp, by simp, by simp⟩
      · cases h
    · split at h
      · rename_i T0 hT0
        split at h
        · rename_i T' Zl Zg hs
          split_ifs at h with hZ; cases h
          exact ⟨rfl, by simp, by simp, by simp, fun _ => ⟨T0, Zl, Zg, hZ, hT0, hs⟩⟩
        · cases h
      · cases h
  · rintro rfl; exact ⟨fun h => by simp [flashTVF, h], fun h => by simp [flashPVF, h]⟩
  · rintro rfl; exact ⟨fun h => by simp [flashTVF, h], fun h => by simp [flashPVF, h]⟩

/-- A chemical with vapor pressure `T`, a liquid that uses another correlation, critical point at 100. -/
noncomputable def toy : Sat where
  corr := fun T => T
  liq := fun T => 2 * T
  eos := fun T => T
  water := fun T => T
  corrFails := fun _ => false
  corrInv := fun P => some P
  eosInv := fun P => some P
  waterInv := fun P => some P
  Tc := 100
  Pc := 100
  waterTc := 100
  waterPc := 100
  solveT := fun P _ => some (P, 0, 1)
  solveP := fun T _ => some (T, 0, 1)

example : flashTVF toy .cubic 50 = .ok ⟨50, 50⟩ ∧ flashPVF toy .cubic 50 = .ok ⟨50, 50⟩ ∧ flashTVF toy .generic 50 = .ok ⟨50, 50⟩ := by
  refine ⟨?_, ?_, ?_⟩ <;> norm_num [flashTVF, flashPVF, toy, guess]

/-- **C143, partial.** The saturation temperature at the saturation pressure is the temperature begun with, if the inverse is one and the pressure is below the critical pressure; for activity liquids if the
correlation of the liquid is that of the object. -/
theorem C143_round_trip_partial (s : Sat) (T : ℝ) :
    (T ≤ s.Tc → s.eos T ≤ s.Pc → s.eosInv (s.eos T) = some T → flashTVF s .cubic T = .ok ⟨T, s.eos T⟩ ∧ flashPVF s .cubic (s.eos T) = .ok ⟨T, s.eos T⟩)
    ∧ (T ≤ s.waterTc → s.water T ≤ s.waterPc → s.waterInv (s.water T) = some T → flashTVF s .iapws T = .ok ⟨T, s.water T⟩ ∧ flashPVF s .iapws (s.water T) = .ok ⟨T, s.water T⟩)
    ∧ (s.liq T = s.corr T → s.corrInv (s.corr T) = some T → flashTVF s .activity T = .ok ⟨T, s.corr T⟩ ∧ flashPVF s .activity (s.corr T) = .ok ⟨T, s.corr T⟩) := by
  refine ⟨fun a b c => ?_, fun a b c => ?_, fun a b => ?_⟩
  · simp [flashTVF, flashPVF, c, a, b]
  · simp [flashTVF, flashPVF, c, a, b]
  · simp [flashTVF, flashPVF, a, b]

example : (50 : ℝ) ≤ toy.Tc ∧ toy.eos 50 ≤ toy.Pc ∧ toy.eosInv (toy.eos 50) = some 50 := by norm_num [toy]

/-- **C143 fails.** With an activity liquid that has its own vapor pressure, the saturation temperature at the saturation pressure is another temperature: one flash reads the liquid, the other the object. -/
theorem C143_round_trip_fails : ∃ (s : Sat) (T P : ℝ), 0 < T ∧ (∀ x, s.corrInv (s.corr x) = some x) ∧ flashTVF s .activity T = .ok ⟨T, P⟩ ∧ flashPVF s .activity P ≠ .ok ⟨T, P⟩ := by
  refine ⟨toy, 50, 100, by norm_num, fun _ => rfl, ?_, ?_⟩
  · norm_num [flashTVF, toy]
  · norm_num [flashPVF, toy]

/-- **C143 fails.** An activity liquid with an ideal gas has a saturated state at every temperature, also above the critical one. -/
theorem C143_supercritical_fails (s : Sat) (T : ℝ) : flashTVF s .activity T = .ok ⟨T, s.liq T⟩ := rfl

/-- Guess of `flash_TSF` (572-577) and `flash_PSF` (583-588): `below` the triple point that of the sublimation curve, else a constant. -/
def solidGuess (below : Bool) (sub : ℚ) : ℚ := if below then sub else 1000000

/-- **C143 fails.** Above the triple pressure the melting temperature is searched from a million kelvin, the number meant for a pressure, outside every phase's limits of 10000 K. -/
theorem C143_melting_guess_fails (sub : ℚ) : solidGuess false sub > 10000 ∧ solidGuess true sub = sub := by
  constructor
  · norm_num [solidGuess]
  · rfl

/-! ## Grids -/

/-- `round(n, -1)` of an integer: to tens, ties to even. -/
def roundTen (n : ℤ) : ℤ := if n % 10 < 5 then 10 * (n / 10) else if 5 < n % 10 then 10 * (n / 10 + 1) else if n / 10 % 2 = 0 then 10 * (n / 10) else 10 * (n / 10 + 1)

/-- `method`. -/
inductive Method | physical | realistic
deriving DecidableEq

/-- `Tmin`, `Tmax` of `generate_Ts` (640-651). `lo`, `hi` are `T_MIN_FIXED`, `T_MAX_FIXED` of the phases combined; `Tc` the average critical temperature. -/
def rangeT (m : Method) (lo hi Tc : ℚ) (Tmin Tmax : Option ℚ) : ℚ × ℚ :=
  (Tmin.getD (match m with | .physical => lo | .realistic => (1/100) * roundTen ⌊Tc⌋), Tmax.getD (match m with | .physical => hi | .realistic => min (10 * roundTen ⌊Tc⌋) 2000))

/-- `Pmin`, `Pmax` of `generate_Ps` (679-690). -/
def rangeP (m : Method) (lo hi Pc : ℚ) (Pmin Pmax : Option ℚ) : ℚ × ℚ :=
  (Pmin.getD (match m with | .physical => lo | .realistic => min ((1/100000) * roundTen ⌊Pc⌋) 100), Pmax.getD (match m with | .physical => hi | .realistic => min (10 * roundTen ⌊Pc⌋) 100000000))

/-- Entry `i` of `logspace(log10(a), log10(b), n)` with the ends of 655-656 (not set for pressures and volumes, where they agree anyway). -/
noncomputable def point (a b : ℝ) (n i : ℕ) : ℝ := (10 : ℝ) ^ (Real.logb 10 a + i * ((Real.logb 10 b - Real.logb 10 a) / (n - 1)))

theorem roundTen_bounds (n : ℤ) : n - 5 ≤ roundTen n ∧ roundTen n ≤ n + 5 ∧ 10 ∣ roundTen n := by
  unfold roundTen
  split_ifs <;> refine ⟨by omega, by omega, ?_⟩ <;> exact Dvd.intro _ rfl

/-- **C143, partial.** Limits given are used; else those of the phases, or around the critical temperature or pressure, which are positive and in order from 6 K and for critical pressures of 6 Pa or more. Missing: lighter
fluids. -/
theorem C143_range_partial (m : Method) (lo hi c : ℚ) (a b : ℚ) :
    rangeT m lo hi c (some a) (some b) = (a, b) ∧ rangeT .physical lo hi c none none = (lo, hi) ∧ rangeP m lo hi c (some a) (some b) = (a, b) ∧ rangeP .physical lo hi c none none = (lo, hi)
    ∧ (6 ≤ c → c ≤ 199000 → 0 < (rangeT .realistic lo hi c none none).1 ∧ (rangeT .realistic lo hi c none none).1 < (rangeT .realistic lo hi c none none).2
        ∧ (rangeT .realistic lo hi c none none).1 < c)
    ∧ (6 ≤ c → 0 < (rangeP .realistic lo hi c none none).1 ∧ (rangeP .realistic lo hi c none none).1 < (rangeP .realistic lo hi c none none).2) := by
  refine ⟨rfl, rfl, rfl, rfl, ?_, ?_⟩
  · intro h6 hc
    obtain ⟨h1, h2, k, h3⟩ := roundTen_bounds ⌊c⌋
    have f1 : (6 : ℤ) ≤ ⌊c⌋ := Int.le_floor.mpr (by exact_mod_cast h6)
    have hk : 10 ≤ roundTen ⌊c⌋ := by omega
    have hk' : (10 : ℚ) ≤ (roundTen ⌊c⌋ : ℚ) := by exact_mod_cast hk
    have f2 := Int.floor_le c
    have h2' : ((roundTen ⌊c⌋ : ℤ) : ℚ) ≤ (⌊c⌋ : ℚ) + 5 := by exact_mod_cast h2
    simp only [rangeT, Option.getD_none]
    refine ⟨by positivity, ?_, by linarith⟩
    rw [lt_min_iff]
    constructor <;> linarith
  · intro h6
    obtain ⟨h1, h2, k, h3⟩ := roundTen_bounds ⌊c⌋
    have f1 : (6 : ℤ) ≤ ⌊c⌋ := Int.le_floor.mpr (by exact_mod_cast h6)
    have hk : 10 ≤ roundTen ⌊c⌋ := by omega
    have hk' : (10 : ℚ) ≤ (roundTen ⌊c⌋ : ℚ) := by exact_mod_cast hk
    simp only [rangeP, Option.getD_none]
    refine ⟨lt_min (by positivity) (by norm_num), ?_⟩
    rw [lt_min_iff]
    constructor
    · exact lt_of_le_of_lt (min_le_left _ _) (by linarith)
    · exact lt_of_le_of_lt (min_le_right _ _) (by norm_num)

/-- **C143.** Realistic pressures end at ten times the critical pressure, rounded, or 100 MPa, and start at a hundred thousandth of it, or 100 Pa. -/
theorem C143_range_values : rangeP .realistic 0 0 3020000 none none = (302 / 10, 30200000) ∧ rangeP .realistic 0 0 22064000 none none = (100, 100000000) ∧ rangeT .realistic 0 0 4000 none none = (40, 2000) := by
  have h1 : ⌊(3020000 : ℚ)⌋ = 3020000 := by rw [Int.floor_eq_iff]; norm_num
  have h2 : ⌊(22064000 : ℚ)⌋ = 22064000 := by rw [Int.floor_eq_iff]; norm_num
  have h3 : ⌊(4000 : ℚ)⌋ = 4000 := by rw [Int.floor_eq_iff]; norm_num
  refine ⟨?_, ?_, ?_⟩
  · norm_num [rangeP, h1, roundTen]
  · norm_num [rangeP, h2, roundTen]
  · norm_num [rangeT, h3, roundTen]

example : rangeT .realistic 0 10000 (507 + 1/2) none none = (51/10, 2000) := by
  have : ⌊(507 + 1/2 : ℚ)⌋ = 507 := by rw [Int.floor_eq_iff]; norm_num
  norm_num [rangeT, this, roundTen]

/-- **C143 fails.** For helium the realistic range begins at zero, whose logarithm raises: critical temperatures below 6 K are rounded to zero. -/
theorem C143_helium_fails (lo hi c : ℚ) (h0 : 0 ≤ c) (h6 : c < 6) : (rangeT .realistic lo hi c none none).1 = 0 := by
  have f1 : (0 : ℤ) ≤ ⌊c⌋ := Int.floor_nonneg.mpr h0
  have f2 : ⌊c⌋ < (6 : ℤ) := Int.floor_lt.mpr (by exact_mod_cast h6)
  have : roundTen ⌊c⌋ = 0 := by
    generalize ⌊c⌋ = n at f1 f2
    unfold roundTen
    rcases lt_or_ge n 5 with h | h
    · rw [if_pos (by omega)]; omega
    · have : n = 5 := by omega
      subst this; decide
  simp [rangeT, this]

example : (0 : ℚ) ≤ 5.1953 ∧ (5.1953 : ℚ) < 6 := by norm_num

/-- **C143.** The points of a grid begin and end at the limits, increase and lie between them, in geometric progression. -/
theorem C143_points (a b : ℝ) (ha : 0 < a) (hab : a < b) (n : ℕ) (hn : 2 ≤ n) :
    point a b n 0 = a ∧ point a b n (n - 1) = b ∧ (∀ i j, i < j → point a b n i < point a b n j) ∧ (∀ i, i < n → a ≤ point a b n i ∧ point a b n i ≤ b)
    ∧ ∀ i, point a b n (i + 1) ^ 2 = point a b n i * point a b n (i + 2) := by
  have hb : 0 < b := ha.trans hab
  have hl : Real.logb 10 a < Real.logb 10 b := Real.logb_lt_logb (by norm_num) ha hab
  have hn' : (0 : ℝ) < (n : ℝ) - 1 := by
    have : (2 : ℝ) ≤ n := by exact_mod_cast hn
    linarith
  have hd : 0 < (Real.logb 10 b - Real.logb 10 a) / ((n : ℝ) - 1) := div_pos (by linarith) hn'
  have h0 : point a b n 0 = a := by
    unfold point
    rw [Nat.cast_zero, zero_mul, add_zero, Real.rpow_logb (by norm_num) (by norm_num) ha]
  have h1 : point a b n (n - 1) = b := by
    unfold point
    rw [Nat.cast_sub (by omega), Nat.cast_one, mul_div_cancel₀ _ hn'.ne', add_sub_cancel, Real.rpow_logb (by norm_num) (by norm_num) hb]
  have hm : ∀ i j, i < j → point a b n i < point a b n j := by
    intro i j hij
    unfold point
    apply Real.rpow_lt_rpow_of_exponent_lt (by norm_num)
    have : (i : ℝ) < j := by exact_mod_cast hij
    have := mul_lt_mul_of_pos_right this hd
    linarith
  refine ⟨h0, h1, hm, ?_, ?_⟩
  · intro i hi
    constructor
    · rcases Nat.eq_zero_or_pos i with rfl | h
      · exact h0.ge
      · exact (h0 ▸ hm 0 i h).le
    · rcases Nat.lt_or_ge i (n - 1) with h | h
      · exact (h1 ▸ hm i (n - 1) h).le
      · have : i = n - 1 := by omega
        rw [this]; exact h1.le
  · intro i
    unfold point
    rw [← Real.rpow_add (by norm_num), ← Real.rpow_natCast, ← Real.rpow_mul (by norm_num)]
    congr 1
    push_cast
    ring

example : (0 : ℝ) < 200 ∧ (200 : ℝ) < 1000 ∧ 2 ≤ 50 := by norm_num

/-- Least volume of `generate_Vs` (712-731) when none is given: `bs` the co-volumes of the cubic phases, `V` the default. `none` is the comparison with `None`. -/
def leastV (V : ℚ) (bs : List ℚ) : Option ℚ :=
  match bs with
  | [] => none
  | b :: t => let m := (t.map (· * (1 + 1/1000000000000000))).foldl min (b * (1 + 1/1000000000000000)); some (if V < m then m else V)

/-- **C143 fails.** Without a cubic phase no volumes can be made unless a least one is given. -/
theorem C143_volumes_fails (V : ℚ) : leastV V [] = none := rfl

/-- **C143, partial.** With cubic phases of one co-volume the volumes are above it. -/
theorem C143_volumes_partial (V b : ℚ) (hb : 0 < b) (n : ℕ) : ∃ v, leastV V (List.replicate (n + 1) b) = some v ∧ b < v ∧ V ≤ v := by
  have key : ∀ n, (List.replicate n (b * (1 + 1/1000000000000000))).foldl min (b * (1 + 1/1000000000000000)) = b * (1 + 1/1000000000000000) := by
    intro n
    induction n with
    | zero => rfl
    | succ n ih => rw [List.replicate_succ, List.foldl_cons, min_self, ih]
  have hlt : b < b * (1 + 1/1000000000000000) := by nlinarith
  rw [List.replicate_succ, leastV]
  simp only [List.map_replicate, key]
  by_cases h : V < b * (1 + 1/1000000000000000)
  · exact ⟨_, rfl, by rw [if_pos h]; exact hlt, by rw [if_pos h]; exact h.le⟩
  · exact ⟨_, rfl, by rw [if_neg h]; exact lt_of_lt_of_le hlt (not_lt.mp h), by rw [if_neg h]⟩

/-- **C143 fails.** With phases of different co-volumes the least is taken, below which the others have no pressure. -/
theorem C143_covolume_fails : ∃ (V b b' v : ℚ), 0 < b ∧ 0 < b' ∧ leastV V [b, b'] = some v ∧ v < b := by
  refine ⟨0, 3, 2, 2 * (1 + 1/1000000000000000), by norm_num, by norm_num, ?_, by norm_num⟩
  norm_num [leastV, min_def]

/-- The lists `grid_props` (1128-1152) and `TPV_inputs` (1048-1074) make: one for each variable named; volumes, vapor fractions and solid fractions likewise. -/
def given (spec0 spec1 : Var) (values : Var → List ℝ) (v : Var) : Option (List ℝ) := if v = spec0 ∨ v = spec1 then some (values v) else none

/-- What is passed on to `grid_flash`: temperatures, pressures, volumes and vapor fractions, not the solid fractions; `grid_flash` takes them in this order. -/
def passed (spec0 spec1 : Var) (values : Var → List ℝ) : List (Var × List ℝ) := [Var.T, .P, .V, .VF].filterMap fun v => (given spec0 spec1 values v).map fun l => (v, l)

/-- `grid_props`. -/
def gridProps {α : Type} (flash : Var → ℝ → Var → ℝ → Option α) (spec0 spec1 : Var) (values : Var → List ℝ) : Option (List (List (Option α))) := Verif.FlashDispatch.grid flash (passed spec0 spec1 values)

/-- The order of variables. -/
def rank : Var → ℕ
  | .T => 0 | .P => 1 | .V => 2 | .VF => 3 | _ => 4

/-- **C143, partial.** With the variables in the order temperature, pressure, volume, vapor fraction, entry `i, j` of the result belongs to value `i` of the first and value `j` of the second. -/
theorem C143_grid_partial {α : Type} (flash : Var → ℝ → Var → ℝ → Option α) (a b : Var) (values : Var → List ℝ) (hab : rank a < rank b) (hb : rank b < 4) :
    gridProps flash a b values = some ((values a).map fun x => (values b).map fun y => flash a x b y) := by
  cases a <;> cases b <;> simp [rank] at hab hb <;> rfl

example : rank .T < rank .VF ∧ rank .VF < 4 := by decide

/-- **C143.** Any two different variables of these four have an order. -/
theorem C143_grid_order (a b : Var) (hab : a ≠ b) (ha : a ∈ [Var.T, .P, .V, .VF]) (hb : b ∈ [Var.T, .P, .V, .VF]) : (rank a < rank b ∧ rank b < 4) ∨ (rank b < rank a ∧ rank a < 4) := by
  simp only [List.mem_cons, List.not_mem_nil, or_false] at ha hb
  rcases ha with rfl | rfl | rfl | rfl <;> rcases hb with rfl | rfl | rfl | rfl <;> first | exact absurd rfl hab | decide

/-- **C143 fails.** In the other order the result is the same as in this one: rows belong to the second variable although the plot puts the first on its axis, and no error is raised when both have the same number of
values, as by default. -/
theorem C143_grid_fails {α : Type} (flash : Var → ℝ → Var → ℝ → Option α) (a b : Var) (values : Var → List ℝ) (ha : rank a < rank b) : gridProps flash b a values = gridProps flash a b values := by
  cases a <;> cases b <;> simp [rank] at ha <;> rfl

example : ∃ (flash : Var → ℝ → Var → ℝ → Option ℝ) (values : Var → List ℝ), (values .T).length = (values .P).length
    ∧ gridProps flash .P .T values ≠ some ((values .P).map fun x => (values .T).map fun y => flash .P x .T y) := by
  refine ⟨fun v x _ _ => if v = .T then some x else some 0, fun v => if v = .T then [1, 2] else [3, 4], rfl, ?_⟩
  rw [C143_grid_fails _ .T .P _ (by decide), C143_grid_partial _ .T .P _ (by decide) (by decide)]
  simp

/-- **C143 fails.** Solid fractions are prepared but not passed on: the grid has one variable too few and raises. -/
theorem C143_solid_grid_fails {α : Type} (flash : Var → ℝ → Var → ℝ → Option α) (values : Var → List ℝ) :
    gridProps flash .T .SF values = none ∧ gridProps flash .P .SF values = none ∧ gridProps flash .SF .T values = none ∧ gridProps flash .SF .P values = none := ⟨rfl, rfl, rfl, rfl⟩

/-! ## Small properties of the object -/

/-- `V_liquids_ref` (1931-1951): the stored volumes at the two usual temperatures, else the correlations. -/
def vRef (T : ℚ) (stp sixty : List ℚ) (corr : ℚ → List ℚ) : List ℚ := if T = 29815/100 then stp else if T = 2887055555555555/10000000000000 then sixty else corr T

/-- `water_index` (1955-1976) with its cache; the value and the cache afterwards. -/
def waterIndex (cache : Option (Option ℕ)) (cas : List String) : Option ℕ × Option (Option ℕ) :=
  match cache with
  | some i => (i, some i)
  | none => let i := if "7732-18-5" ∈ cas then some (cas.idxOf "7732-18-5") else none; (i, some i)

/-- **C143.** Where the stored volumes are those of the correlations, the reference volumes are those at the reference temperature. -/
theorem C143_reference_volumes (T : ℚ) (corr : ℚ → List ℚ) : vRef T (corr (29815/100)) (corr (2887055555555555/10000000000000)) corr = corr T := by
  unfold vRef
  split_ifs with h1 h2
  · rw [h1]
  · rw [h2]
  · rfl

/-- **C143.** The index of water is that of its first entry, and unknown if and only if it is no component; asking again gives the same. -/
theorem C143_water (cas : List String) :
    (∀ i, (waterIndex none cas).1 = some i → cas[i]? = some "7732-18-5") ∧ ((waterIndex none cas).1 = none ↔ "7732-18-5" ∉ cas)
    ∧ (waterIndex (waterIndex none cas).2 cas).1 = (waterIndex none cas).1 := by
  by_cases h : "7732-18-5" ∈ cas
  · have h2 := List.idxOf_lt_length_of_mem h
    simp only [waterIndex, if_pos h]
    refine ⟨?_, by simp [h], trivial⟩
    rintro i hi
    cases hi
    rw [List.getElem?_eq_getElem h2, List.getElem_idxOf]
  · simp [waterIndex, h]

example : (waterIndex none ["64-17-5", "7732-18-5"]).1 = some 1 := by decide

end Verif.Setup
