import Mathlib.Data.Real.Basic
import Mathlib.Tactic.Ring
import Mathlib.Tactic.Linarith
import Mathlib.Tactic.FieldSimp
import Mathlib.Tactic.NormNum
import Mathlib.Algebra.BigOperators.Fin
import Mathlib.Data.Fintype.Prod

/-!
# What a flash solves for (`thermo/flash/flash_base.py`)

* C88: conversion of specifications, checks and dispatch in `Flash.flash` (272-504).
* C89: the other entry points: phase boundaries (514-618), grids (742-823), and the table of distinct liquid models
  (832-864) with its use in `FlashVLN.phases_at` (`flash_vln.py` 240-262).

The flash algorithms themselves are other modules; here they are names. Exceptions are values.
-/

namespace Verif.FlashDispatch

/-! ## C88: specifications -/

/-- The keyword arguments of `flash` that are specifications (158-162). -/
structure Args where
  (T P VF SF V H S G U A rho rhoMass HMass SMass GMass UMass AMass HReactive : Option ℝ)

/-- The ones left after conversion. -/
structure Specs where
  (T P VF SF V H S G U A : Option ℝ)

/-- Mixture data used by the conversion: mean molecular weight in g/mol and mean enthalpy of formation. -/
structure Mix where
  (MW Hf : ℝ)

/-- `a if given is None else f(given)`. -/
def over (f : ℝ → ℝ) (given a : Option ℝ) : Option ℝ :=
  match given with
  | some x => some (f x)
  | none => a

/-- `rho_to_Vm` of `chemicals`. -/
noncomputable def rhoToVm (rho MW : ℝ) : ℝ := 1 / (rho / MW * 1000)
/-- `property_mass_to_molar` of `chemicals`. -/
noncomputable def massToMolar (x MW : ℝ) : ℝ := x * MW * (1 / 1000)

/-- Lines 289-306. -/
noncomputable def convert (m : Mix) (a : Args) : Specs where
  T := a.T
  P := a.P
  VF := a.VF
  SF := a.SF
  V := over (rhoToVm · m.MW) a.rhoMass (over (fun r => 1 / r) a.rho a.V)
  H := over (fun h => h - m.Hf) a.HReactive (over (massToMolar · m.MW) a.HMass a.H)
  S := over (massToMolar · m.MW) a.SMass a.S
  G := over (massToMolar · m.MW) a.GMass a.G
  U := over (massToMolar · m.MW) a.UMass a.U
  A := over (massToMolar · m.MW) a.AMass a.A

/-- No specification. -/
def noArgs : Args :=
  { T := none, P := none, VF := none, SF := none, V := none, H := none, S := none, G := none, U := none, A := none
    rho := none, rhoMass := none, HMass := none, SMass := none, GMass := none, UMass := none, AMass := none
    HReactive := none }

/-- **C88.** A volume found from a molar or mass density has that density. -/
theorem C88_density (m : Mix) (a : Args) (r : ℝ) (hr : 0 < r) (hM : 0 < m.MW) :
    (a.rhoMass = none → a.rho = some r → ∃ v, (convert m a).V = some v ∧ 1 / v = r)
      ∧ (a.rhoMass = some r → ∃ v, (convert m a).V = some v ∧ m.MW / 1000 / v = r) := by
  refine ⟨fun h1 h2 => ⟨1 / r, ?_, ?_⟩, fun h1 => ⟨rhoToVm r m.MW, ?_, ?_⟩⟩
  · simp [convert, over, h1, h2]
  · rw [one_div_one_div]
  · simp [convert, over, h1]
  · unfold rhoToVm
    field_simp

/-- **C88.** A molar energy found from a specific one gives it back per mass (`MW/1000` is in kg/mol), and a reactive
enthalpy is the enthalpy plus that of formation. -/
theorem C88_energy (m : Mix) (a : Args) (x : ℝ) (hM : 0 < m.MW) :
    (a.HReactive = none → a.HMass = some x → ∃ h, (convert m a).H = some h ∧ h / (m.MW / 1000) = x)
      ∧ (a.SMass = some x → ∃ h, (convert m a).S = some h ∧ h / (m.MW / 1000) = x)
      ∧ (a.GMass = some x → ∃ h, (convert m a).G = some h ∧ h / (m.MW / 1000) = x)
      ∧ (a.UMass = some x → ∃ h, (convert m a).U = some h ∧ h / (m.MW / 1000) = x)
      ∧ (a.AMass = some x → ∃ h, (convert m a).A = some h ∧ h / (m.MW / 1000) = x)
      ∧ (a.HReactive = some x → ∃ h, (convert m a).H = some h ∧ h + m.Hf = x) := by
  have key : massToMolar x m.MW / (m.MW / 1000) = x := by
    unfold massToMolar
    field_simp
  refine ⟨fun h1 h2 => ⟨_, ?_, key⟩, fun h => ⟨_, ?_, key⟩, fun h => ⟨_, ?_, key⟩, fun h => ⟨_, ?_, key⟩,
    fun h => ⟨_, ?_, key⟩, fun h => ⟨x - m.Hf, ?_, by ring⟩⟩
  · simp [convert, over, h1, h2]
  all_goals simp [convert, over, h]

/-- **C88.** A molar specification without a converted one of the same quantity is left as given. -/
theorem C88_molar (m : Mix) (a : Args) (h : a.rho = none ∧ a.rhoMass = none ∧ a.HMass = none ∧ a.SMass = none ∧ a.GMass = none
    ∧ a.UMass = none ∧ a.AMass = none ∧ a.HReactive = none) :
    convert m a = ⟨a.T, a.P, a.VF, a.SF, a.V, a.H, a.S, a.G, a.U, a.A⟩ := by
  obtain ⟨h1, h2, h3, h4, h5, h6, h7, h8⟩ := h
  simp [convert, over, h1, h2, h3, h4, h5, h6, h7, h8]

/-- **C88 fails.** Contradictory specifications of one quantity are accepted: the molar one is dropped. -/
theorem C88_conflict_fails : ∃ (m : Mix) (a : Args), a.H = some 1 ∧ a.HMass = some 1
    ∧ (convert m a).H ≠ a.H := by
  refine ⟨⟨18, 0⟩, { noArgs with H := some 1, HMass := some 1 }, rfl, rfl, ?_⟩
  simp only [convert, over, noArgs, massToMolar, ne_eq, Option.some.injEq]
  norm_num

example : ∃ (m : Mix) (a : Args), 0 < m.MW ∧ a.rhoMass = some 1000 ∧ a.HMass = some 5 ∧ a.HReactive = none :=
  ⟨⟨18, -1⟩, { noArgs with rhoMass := some 1000, HMass := some 5 }, by norm_num, rfl, rfl, rfl⟩

/-! ### Checks -/

/-- What is wrong with the input. -/
inductive Bad
  | T | P | V | VF | noVF | SF | noSF | unsupported
  deriving DecidableEq

/-- The flash object: lowest temperature accepted and the flags. -/
structure Flasher where
  TminAny : ℝ
  (supportsVF supportsSF : Bool)

/-- Lines 325-373, in order. -/
noncomputable def check (f : Flasher) (s : Specs) : Option Bad :=
  open Classical in
  if ∃ T, s.T = some T ∧ T < f.TminAny then some .T
  else if ∃ P, s.P = some P ∧ P ≤ 0 then some .P
  else if ∃ V, s.V = some V ∧ V ≤ 0 then some .V
  else if ∃ x, s.VF = some x ∧ (x < 0 ∨ 1 < x) then some .VF
  else if s.VF ≠ none ∧ f.supportsVF = false then some .noVF
  else if ∃ x, s.SF = some x ∧ (x < 0 ∨ 1 < x) then some .SF
  else if s.SF ≠ none ∧ f.supportsSF = false then some .noSF
  else none

/-- **C88.** The checks pass exactly for positive pressures and volumes, phase fractions from zero to one of kinds that the
flash supports, and temperatures not below the limit. -/
theorem C88_check (f : Flasher) (s : Specs) : check f s = none ↔
    (∀ T, s.T = some T → f.TminAny ≤ T) ∧ (∀ P, s.P = some P → 0 < P) ∧ (∀ V, s.V = some V → 0 < V)
      ∧ (∀ x, s.VF = some x → 0 ≤ x ∧ x ≤ 1) ∧ (s.VF ≠ none → f.supportsVF = true)
      ∧ (∀ x, s.SF = some x → 0 ≤ x ∧ x ≤ 1) ∧ (s.SF ≠ none → f.supportsSF = true) := by
  classical
  have hb : ∀ b : Bool, ¬ b = false ↔ b = true := by decide
  unfold check
  constructor
  · intro h
    split_ifs at h with h1 h2 h3 h4 h5 h6 h7
    push Not at h1 h2 h3 h4 h5 h6 h7
    exact ⟨h1, h2, h3, h4, fun e => (hb _).1 (h5 e), h6, fun e => (hb _).1 (h7 e)⟩
  · rintro ⟨h1, h2, h3, h4, h5, h6, h7⟩
    rw [if_neg, if_neg, if_neg, if_neg, if_neg, if_neg, if_neg]
    · rintro ⟨e, hf⟩; rw [h7 e] at hf; cases hf
    · rintro ⟨x, e, hx⟩; obtain ⟨a, b⟩ := h6 x e; rcases hx with hx | hx <;> linarith
    · rintro ⟨e, hf⟩; rw [h5 e] at hf; cases hf
    · rintro ⟨x, e, hx⟩; obtain ⟨a, b⟩ := h4 x e; rcases hx with hx | hx <;> linarith
    · rintro ⟨x, e, hx⟩; have := h3 x e; linarith
    · rintro ⟨x, e, hx⟩; have := h2 x e; linarith
    · rintro ⟨x, e, hx⟩; have := h1 x e; linarith

/-- `T_MIN_FLASH_ANY` (869) of the lowest temperatures of the phases, the first being `a`. -/
noncomputable def tMinAny (a : ℝ) (l : List ℝ) : ℝ := l.foldl max a

/-- **C88.** The limit is one of the phases' limits, and all phases support temperatures that pass. -/
theorem C88_limit (a : ℝ) (l : List ℝ) : tMinAny a l ∈ a :: l ∧ ∀ x ∈ a :: l, x ≤ tMinAny a l := by
  unfold tMinAny
  induction l generalizing a with
  | nil => simp
  | cons b l ih =>
    rw [List.foldl_cons]
    obtain ⟨h1, h2⟩ := ih (max a b)
    constructor
    · rcases List.mem_cons.1 h1 with h | h
      · rw [h]
        rcases max_cases a b with ⟨e, -⟩ | ⟨e, -⟩ <;> rw [e] <;> simp
      · exact List.mem_cons_of_mem _ (List.mem_cons_of_mem _ h)
    · intro x hx
      have h3 := h2 (max a b) List.mem_cons_self
      rcases List.mem_cons.1 hx with h | h
      · rw [h]; exact (le_max_left a b).trans h3
      · rcases List.mem_cons.1 h with h | h
        · rw [h]; exact (le_max_right a b).trans h3
        · exact h2 x (List.mem_cons_of_mem _ h)

/-- **C88 fails.** A temperature that one phase supports is refused, with the message that it is below the minimum
"supported by any of the provided phases". -/
theorem C88_limit_fails : ∃ (f : Flasher) (s : Specs) (l : List ℝ) (T : ℝ), f.TminAny = tMinAny 243 l ∧ s.T = some T
    ∧ (∃ x ∈ l, x ≤ T) ∧ check f s = some .T := by
  classical
  refine ⟨⟨243, true, true⟩, ⟨some 200, some 1, none, none, none, none, none, none, none, none⟩, [1], 200, ?_, rfl,
    ⟨1, by simp, by norm_num⟩, ?_⟩
  · simp [tMinAny]
  · unfold check
    rw [if_pos ⟨200, rfl, by norm_num⟩]

example : check ⟨1, true, false⟩ ⟨some 300, none, some (1 / 2), none, none, none, none, none, none, none⟩ = none := by
  rw [C88_check]
  simp
  norm_num

/-! ### Dispatch -/

/-- The variables. -/
inductive Var
  | T | P | V | H | S | U | G | A | VF | SF
  deriving DecidableEq, Repr

/-- Which are given. -/
abbrev Given := Var → Bool

/-- What is computed: the two variables honoured, and for the one-dimensional solvers the variable iterated on first and
after a failure. -/
inductive Route
  | TPV (a b : Var)
  | TVF | PVF | TSF | PSF
  | VFspec (spec : Var)
  | iter (fixed spec by_ backup : Var)
  deriving DecidableEq, Repr

/-- `flash_TPV` of all flash classes (`flash_vl.py` 799-803): temperature and pressure if both are given. -/
def tpv (g : Given) : Route := if !g .T then .TPV .P .V else if !g .P then .TPV .T .V else .TPV .T .P

/-- `spec_to_iter_vars` and its backup (62-89), by the key of line 455. -/
def iterVars (t p v h s u : Bool) : Option Route :=
  match t, p, v, h, s, u with
  | true, false, false, true, false, false => some (.iter .T .H .P .V)
  | true, false, false, false, true, false => some (.iter .T .S .P .V)
  | true, false, false, false, false, true => some (.iter .T .U .V .P)
  | false, true, false, true, false, false => some (.iter .P .H .T .V)
  | false, true, false, false, true, false => some (.iter .P .S .T .V)
  | false, true, false, false, false, true => some (.iter .P .U .T .V)
  | false, false, true, true, false, false => some (.iter .V .H .P .T)
  | false, false, true, false, true, false => some (.iter .V .S .P .T)
  | false, false, true, false, false, true => some (.iter .V .U .P .T)
  | _, _, _, _, _, _ => none

/-- Line 444: the first specification that is not the vapor fraction, in the order in which they were stored. -/
def firstSpec (g : Given) : Var :=
  if g .T then .T else if g .P then .P else if g .V then .V else if g .H then .H else if g .S then .S
  else if g .U then .U else if g .G then .G else if g .A then .A else .SF

/-- Lines 375-504; `none` is the exception of line 504. -/
def route (g : Given) : Option Route :=
  if (g .T && (g .P || g .V)) || (g .P && g .V) then some (tpv g)
  else if g .T && g .VF then some .TVF
  else if g .P && g .VF then some .PVF
  else if g .T && g .SF then some .TSF
  else if g .P && g .SF then some .PSF
  else if g .VF && (g .H || g .S || g .U || g .G || g .A) then some (.VFspec (firstSpec g))
  else iterVars (g .T) (g .P) (g .V) (g .H) (g .S) (g .U)

/-- The variables that a route honours. -/
def Route.uses : Route → Var × Var
  | .TPV a b => (a, b)
  | .TVF => (.T, .VF)
  | .PVF => (.P, .VF)
  | .TSF => (.T, .SF)
  | .PSF => (.P, .SF)
  | .VFspec v => (.VF, v)
  | .iter f s _ _ => (f, s)

/-- Presence flags as a function. -/
def ofBools (t p v h s u g a vf sf : Bool) : Given
  | .T => t | .P => p | .V => v | .H => h | .S => s | .U => u | .G => g | .A => a | .VF => vf | .SF => sf

theorem ofBools_surj (g : Given) :
    g = ofBools (g .T) (g .P) (g .V) (g .H) (g .S) (g .U) (g .G) (g .A) (g .VF) (g .SF) := by
  funext v
  cases v <;> rfl

/-- The order of the specifications. -/
def allVars : List Var := [.T, .P, .V, .H, .S, .U, .G, .A, .VF, .SF]

/-- How many are given. -/
def count (g : Given) : ℕ := (allVars.filter g).length

theorem finite_claim {p : Given → Prop} [DecidablePred p]
    (h : ∀ a b c d e f g i j k : Bool, p (ofBools a b c d e f g i j k)) (g : Given) : p g := by
  rw [ofBools_surj g]
  exact h _ _ _ _ _ _ _ _ _ _

set_option maxRecDepth 100000 in
/-- **C88.** If exactly two specifications are given and the flash is attempted, it is a flash for these two. -/
theorem C88_two (g : Given) (h2 : count g = 2) (r : Route) (h : route g = some r) :
    g r.uses.1 = true ∧ g r.uses.2 = true ∧ r.uses.1 ≠ r.uses.2 := by
  have key := finite_claim (p := fun g => count g = 2 → (route g).all (fun r => g r.uses.1 && g r.uses.2
    && decide (r.uses.1 ≠ r.uses.2)) = true) (by decide +kernel) g h2
  rw [h] at key
  simpa [and_assoc] using key

/-- The pairs a flash exists for. -/
def supported : List (Var × Var) :=
  [(.T, .P), (.T, .V), (.P, .V), (.T, .VF), (.P, .VF), (.T, .SF), (.P, .SF), (.H, .VF), (.S, .VF), (.U, .VF), (.G, .VF),
    (.A, .VF), (.T, .H), (.T, .S), (.T, .U), (.P, .H), (.P, .S), (.P, .U), (.V, .H), (.V, .S), (.V, .U)]

set_option maxRecDepth 100000 in
/-- **C88.** Two specifications are attempted exactly if they are one of these 21 pairs; a single one never is. -/
theorem C88_supported (g : Given) :
    (count g = 2 → ((route g).isSome = true ↔ ∃ q ∈ supported, g q.1 = true ∧ g q.2 = true))
      ∧ (count g ≤ 1 → route g = none) := by
  refine finite_claim (p := fun g => (count g = 2 → ((route g).isSome = true
    ↔ ∃ q ∈ supported, g q.1 = true ∧ g q.2 = true)) ∧ (count g ≤ 1 → route g = none)) ?_ g
  decide +kernel

set_option maxRecDepth 100000 in
/-- **C88.** The variable iterated on, and the one used after a failure, are neither specified nor equal, and together with
the fixed one are temperature, pressure and volume. -/
theorem C88_iter (g : Given) (f s b k : Var) (h : route g = some (.iter f s b k)) :
    g b = false ∧ g k = false ∧ b ≠ k ∧ f ≠ b ∧ f ≠ k ∧ f ∈ [Var.T, .P, .V] ∧ b ∈ [Var.T, .P, .V]
      ∧ k ∈ [Var.T, .P, .V] ∧ s ∈ [Var.H, .S, .U] := by
  have key := finite_claim (p := fun g => (route g).all (fun r => match r with
    | .iter f s b k => decide (g b = false ∧ g k = false ∧ b ≠ k ∧ f ≠ b ∧ f ≠ k ∧ f ∈ [Var.T, .P, .V]
        ∧ b ∈ [Var.T, .P, .V] ∧ k ∈ [Var.T, .P, .V] ∧ s ∈ [Var.H, .S, .U])
    | _ => true) = true) (by decide +kernel) g
  rw [h] at key
  exact of_decide_eq_true key

set_option maxRecDepth 100000 in
/-- **C88.** Whatever is given, a specification that was not given is never used. -/
theorem C88_given (g : Given) (r : Route) (h : route g = some r) : g r.uses.1 = true ∧ g r.uses.2 = true := by
  have key := finite_claim (p := fun g => (route g).all (fun r => g r.uses.1 && g r.uses.2) = true) (by decide +kernel) g
  rw [h] at key
  simpa using key

/-- **C88 fails.** More than two specifications are not refused: the others are ignored without an error. A vapor
fraction, a volume and an enthalpy are treated as vapor fraction and volume, for which no flash exists. -/
theorem C88_over_fails :
    route (ofBools true true false true false false false false false false) = some (.TPV .T .P)
      ∧ route (ofBools true false false true false false true false false false) = some (.iter .T .H .P .V)
      ∧ route (ofBools true false false false false false false false true true) = some .TVF
      ∧ route (ofBools false false true true false false false false true false) = some (.VFspec .V)
      ∧ route (ofBools false false true false false false false false true false) = none := by
  decide

example : count (ofBools false true false true false false false false false false) = 2
    ∧ route (ofBools false true false true false false false false false false) = some (.iter .P .H .T .V) := by decide

/-! ## C89: other entry points -/

/-- `flash_phase_boundary` (515-558): the first algorithm is called outside of any `try`, so its result or exception
is the result. `algo fixed iter` is that algorithm. -/
def boundary {α : Type} (g : Given) (algo : Var → Var → Option α) : Option α :=
  if ([Var.T, .P, .V, .H, .S, .U].filter g).length ≠ 1 then none
  else if g .U then algo .U .P
  else if g .S then algo .S .P
  else if g .H then algo .H .P
  else if g .V then algo .V .P
  else if g .P then algo .P .T
  else algo .T .P

/-- **C89.** A phase boundary is searched at the one specified variable, by varying another one. -/
theorem C89_boundary {α : Type} (g : Given) (algo : Var → Var → Option α) (x : α) (h : boundary g algo = some x) :
    ∃ f i, g f = true ∧ f ≠ i ∧ i ∈ [Var.T, .P] ∧ algo f i = some x ∧ ∀ f' ∈ [Var.T, .P, .V, .H, .S, .U], g f' = true → f' = f := by
  have key : ∀ f, f ∈ [Var.T, .P, .V, .H, .S, .U] → g f = true → ([Var.T, .P, .V, .H, .S, .U].filter g).length = 1 →
      ∀ f' ∈ [Var.T, .P, .V, .H, .S, .U], g f' = true → f' = f := by
    intro f hf hg hl f' hf' hg'
    obtain ⟨a, ha⟩ := List.length_eq_one_iff.1 hl
    have m1 : f ∈ [Var.T, .P, .V, .H, .S, .U].filter g := List.mem_filter.2 ⟨hf, hg⟩
    have m2 : f' ∈ [Var.T, .P, .V, .H, .S, .U].filter g := List.mem_filter.2 ⟨hf', hg'⟩
    rw [ha, List.mem_singleton] at m1 m2
    rw [m1, m2]
  unfold boundary at h
  split_ifs at h with h0 h1 h2 h3 h4 h5
  all_goals rw [not_not] at h0
  · exact ⟨.U, .P, h1, by decide, by decide, h, key _ (by decide) h1 h0⟩
  · exact ⟨.S, .P, h2, by decide, by decide, h, key _ (by decide) h2 h0⟩
  · exact ⟨.H, .P, h3, by decide, by decide, h, key _ (by decide) h3 h0⟩
  · exact ⟨.V, .P, h4, by decide, by decide, h, key _ (by decide) h4 h0⟩
  · exact ⟨.P, .T, h5, by decide, by decide, h, key _ (by decide) h5 h0⟩
  · have hT : g .T = true := by
      by_contra hT
      simp [h1, h2, h3, h4, h5, hT] at h0
    exact ⟨.T, .P, hT, by decide, by decide, h, key _ (by decide) hT h0⟩

example : boundary (ofBools false true false false false false false false false false) (fun f i => some (f, i))
    = some (.P, .T) := by decide

/-- Boundaries of `flash_mixing_phase_boundary` (576-590). -/
inductive Kind
  | VL | LL | VLL | VLN_LN | VLL_LL
  deriving DecidableEq

/-- Its algorithms (566-569). -/
inductive Algo
  | oneSided | bounded | satBounded
  deriving DecidableEq

/-- The loop 593-618: a method that is called decides; none of the calls is inside a `try`. -/
def mixing {α : Type} (k : Kind) (run : Algo → Option α) : List Algo → Option α
  | [] => none
  | .oneSided :: l => if k ≠ .VL then mixing k run l else run .oneSided
  | .bounded :: _ => run .bounded
  | .satBounded :: l => if k = .VL then run .satBounded else mixing k run l

/-- **C89.** The result is that of an algorithm meant for the kind of boundary. -/
theorem C89_mixing {α : Type} (k : Kind) (run : Algo → Option α) :
    mixing k run [.oneSided, .bounded, .satBounded] = run (if k = .VL then .oneSided else .bounded) := by
  cases k <;> rfl

/-- **C89 fails.** If the first algorithm fails, the others listed after it are not tried, though one of them would
succeed. -/
theorem C89_fallback_fails : ∃ run : Algo → Option ℕ, run .bounded = some 1
    ∧ mixing .VL run [.oneSided, .bounded, .satBounded] = none :=
  ⟨fun a => if a = .oneSided then none else some 1, rfl, rfl⟩

/-! ### Grids -/

/-- `grid_flash` (757-823): values by variable, stored in the order of 760-783; the first two lists are combined.
`none` outside is the `IndexError` if fewer than two are given, `none` inside a flash that failed. -/
def grid {α : Type} (flash : Var → ℝ → Var → ℝ → Option α) (specs : List (Var × List ℝ)) : Option (List (List (Option α))) :=
  match specs with
  | (k0, xs) :: (k1, ys) :: _ => some (xs.map fun x => ys.map fun y => flash k0 x k1 y)
  | _ => none

/-- **C89.** Row and column of the result are those of the values, and every entry is the flash at its pair of values. -/
theorem C89_grid {α : Type} (flash : Var → ℝ → Var → ℝ → Option α) (k0 k1 : Var) (xs ys : List ℝ) :
    ∃ m, grid flash [(k0, xs), (k1, ys)] = some m ∧ m.length = xs.length ∧ (∀ row ∈ m, row.length = ys.length)
      ∧ ∀ i j (hi : i < xs.length) (hj : j < ys.length), (m[i]?.bind fun r => r[j]?) = some (flash k0 xs[i] k1 ys[j]) := by
  refine ⟨_, rfl, by simp, ?_, ?_⟩
  · intro row hrow
    obtain ⟨x, -, rfl⟩ := List.mem_map.1 hrow
    simp
  · intro i j hi hj
    simp [hi, hj]

/-- **C89 fails.** A third list of values is ignored. -/
theorem C89_grid_fails {α : Type} (flash : Var → ℝ → Var → ℝ → Option α) (a b c : Var × List ℝ) :
    grid flash [a, b, c] = grid flash [a, b] := rfl

example : (grid (fun _ x _ y => some (x, y)) [(Var.T, [1, 2]), (Var.P, [3])]).isSome = true := rfl

/-! ### Distinct liquids -/

/-- The loop 842-849: number of the liquid, distinct models so far, and the table. -/
def uniqStep (st : ℕ × List ℕ × List ℕ) (h : ℕ) : ℕ × List ℕ × List ℕ :=
  if h ∈ st.2.1 then (st.1 + 1, st.2.1, st.2.2 ++ [st.2.1.idxOf h])
  else (st.1 + 1, st.2.1 ++ [h], st.2.2 ++ [st.1])

/-- `unique_liquids` and `liquids_to_unique_liquids` (832-849), of the hashes of the models. -/
def uniq (hs : List ℕ) : List ℕ × List ℕ :=
  match hs with
  | [] => ([], [])
  | a :: l => if l.all (· == a) then ([a], (a :: l).map fun _ => 0) else (hs.foldl uniqStep (0, [], [])).2

/-- The liquids `phases_at` returns (248-253): slot `j` gets the distinct liquid whose number is entry `j` of the table, and
stays `None` if there is none. -/
def slots (u : List ℕ × List ℕ) : List (Option ℕ) := u.2.map fun i => u.1[i]?

theorem uniq_fold_new (a : List ℕ) (u t : List ℕ) (hn : (u ++ a).Nodup) :
    a.foldl uniqStep (u.length, u, t)
      = (u.length + a.length, u ++ a, t ++ (List.range a.length).map (· + u.length)) := by
  induction a generalizing u t with
  | nil => simp
  | cons x a ih =>
    have hx : x ∉ u := by
      intro hx
      rw [List.nodup_append] at hn
      exact hn.2.2 x hx x List.mem_cons_self rfl
    have h1 : uniqStep (u.length, u, t) x = ((u ++ [x]).length, u ++ [x], t ++ [u.length]) := by
      simp [uniqStep, hx]
    rw [List.foldl_cons, h1, ih (u ++ [x]) (t ++ [u.length]) (by simpa using hn)]
    simp only [List.length_append, List.length_cons, List.length_nil, List.append_assoc, List.cons_append,
      List.nil_append, List.range_succ_eq_map, List.map_cons, List.map_map, zero_add, Prod.mk.injEq, true_and]
    refine ⟨by omega, ?_⟩
    congr 2
    apply List.map_congr_left
    intro k _
    simp only [Function.comp]
    omega

theorem uniq_fold_old (b u t : List ℕ) (n : ℕ) (hb : ∀ x ∈ b, x ∈ u) :
    b.foldl uniqStep (n, u, t) = (n + b.length, u, t ++ b.map fun x => u.idxOf x) := by
  induction b generalizing t n with
  | nil => simp
  | cons x b ih =>
    have h1 : uniqStep (n, u, t) x = (n + 1, u, t ++ [u.idxOf x]) := by
      simp [uniqStep, hb x List.mem_cons_self]
    rw [List.foldl_cons, h1, ih _ _ fun y hy => hb y (List.mem_cons_of_mem _ hy)]
    simp only [List.length_cons, List.map_cons, List.append_assoc, List.cons_append, List.nil_append, Prod.mk.injEq,
      and_true]
    omega

theorem range_slots (a : List ℕ) : (List.range a.length).map (fun i => a[i]?) = a.map some := by
  apply List.ext_getElem
  · simp
  · intro n h1 h2
    simp at h1 h2
    simp [h1]

/-- **C89.** Every liquid gets a phase of its own model if the distinct models come first, in particular if all are distinct
or all are the same. Partial: see below for other orders. -/
theorem C89_liquids_partial (a b : List ℕ) (ha : a.Nodup) (hb : ∀ x ∈ b, x ∈ a) :
    slots (uniq (a ++ b)) = (a ++ b).map some := by
  have general : slots ((a ++ b).foldl uniqStep (0, [], [])).2 = (a ++ b).map some := by
    have h1 := uniq_fold_new a [] [] (by simpa using ha)
    simp only [List.length_nil, List.nil_append, zero_add, add_zero, List.map_id'] at h1
    rw [List.foldl_append, h1, uniq_fold_old b a _ _ hb]
    unfold slots
    simp only [List.map_append, List.map_map, range_slots]
    congr 1
    apply List.map_congr_left
    intro x hx
    simp only [Function.comp]
    have h2 := List.idxOf_lt_length_of_mem (hb x hx)
    rw [List.getElem?_eq_getElem h2, List.getElem_idxOf]
  cases hc : a ++ b with
  | nil => rfl
  | cons x l =>
    rw [hc] at general
    unfold uniq
    dsimp only
    split_ifs with h
    · unfold slots
      have h3 : ∀ y ∈ x :: l, y = x := by
        intro y hy
        rcases List.mem_cons.1 hy with h4 | h4
        · exact h4
        · exact by simpa using List.all_eq_true.1 h y h4
      simp only [List.map_map]
      apply List.map_congr_left
      intro y hy
      simp [h3 y hy]
    · exact general

/-- **C89 fails.** With two equal liquids followed by another one, the table holds a number that is no distinct liquid, and
the third liquid phase is `None`. -/
theorem C89_liquids_fails : slots (uniq [7, 7, 8]) = [some 7, some 7, none] := by decide

example : ([7, 8] : List ℕ).Nodup ∧ ∀ x ∈ [8, 7], x ∈ ([7, 8] : List ℕ) := by decide

end Verif.FlashDispatch
