import Verif.Phases.ExcessLiquid
import Verif.Eos.Saturation

/-!
# State and data of `GibbsExcessLiquid` and `GibbsExcessSolid` (`thermo/phases/gibbs_excess.py`)

* C85: options, changes of state, and which stored values a changed phase takes over.
* C86: pure component data: polynomial volumes, fugacity coefficients at saturation, Henry's law.
* C87: pressure derivatives of an incompressible liquid and the Tait correction.

Attributes that may be missing are options; an exception is `none` or an error value. The correlation objects are
functions of temperature. `henry_mode` is modelled as a flag. Array (numpy) variants are left out.
-/

namespace Verif.ExcessState

open Filter Topology

/-! ## C85: options -/

/-- The attributes set at 453-494; `none` is an attribute that was not set. -/
structure Flags where
  (usePoynting usePhiSat usePoyntingCal usePhiSatCal useHvapCal : Option Bool)
  deriving DecidableEq

/-- `__init__` 453-468. -/
def equilibriumFlags (basis : Option String) (use_Poynting use_phis_sat : Bool) : Option Bool × Option Bool :=
  match basis with
  | none => (some use_Poynting, some use_phis_sat)
  | some b =>
    if b = "Poynting" then (some true, some false)
    else if b = "Poynting&PhiSat" then (some true, some true)
    else if b = "PhiSat" then (some false, some true)
    else if b = "Psat" then (some false, some false)
    else (none, none)

/-- `__init__` 470-494. -/
def caloricFlags (basis : Option String) (use_Poynting use_phis_sat use_Hvap : Bool) :
    Option Bool × Option Bool × Option Bool :=
  match basis with
  | none => (some use_Poynting, some use_phis_sat, some use_Hvap)
  | some b =>
    if b = "Poynting" then (some true, some false, some false)
    else if b = "Poynting&PhiSat" then (some true, some true, some false)
    else if b = "PhiSat" then (some false, some true, some false)
    else if b = "Psat" then (some false, some false, some false)
    else if b = "Hvap" then (some false, some false, some true)
    else (none, none, none)

/-- Both. -/
def flags (eq cal : Option String) (use_Poynting use_phis_sat use_Hvap : Bool) : Flags :=
  let e := equilibriumFlags eq use_Poynting use_phis_sat
  let c := caloricFlags cal use_Poynting use_phis_sat use_Hvap
  ⟨e.1, e.2, c.1, c.2.1, c.2.2⟩

/-- What `phis` reads (1514, 1759), and what `H`, `S`, `Cp` read (2323, 2329, 2611, 2779). -/
def Flags.equilibrium (f : Flags) : Option Bool × Option Bool := (f.usePoynting, f.usePhiSat)
@[inherit_doc Flags.equilibrium] def Flags.caloric (f : Flags) : Option Bool × Option Bool × Option Bool :=
  (f.usePoynting, f.usePhiSat, f.useHvapCal)

/-- The documented bases. -/
inductive Basis
  | psat | poynting | phiSat | both | hvap
  deriving DecidableEq

/-- Their names. -/
def Basis.name : Basis → String
  | .psat => "Psat"
  | .poynting => "Poynting"
  | .phiSat => "PhiSat"
  | .both => "Poynting&PhiSat"
  | .hvap => "Hvap"

/-- What a basis means: Poynting factors, fugacity coefficients at saturation, enthalpies of vaporization. -/
def Basis.meaning : Basis → Bool × Bool × Bool
  | .psat => (false, false, false)
  | .poynting => (true, false, false)
  | .phiSat => (false, true, false)
  | .both => (true, true, false)
  | .hvap => (false, false, true)

/-- **C85.** The fugacity coefficients use what the `equilibrium_basis` names, whatever the other options. -/
theorem C85_equilibrium (b : Basis) (h : b ≠ .hvap) (cal : Option String) (p q v : Bool) :
    (flags (some b.name) cal p q v).equilibrium = (some b.meaning.1, some b.meaning.2.1) := by
  cases b <;> first | rfl | exact absurd rfl h

/-- **C85.** Without a named basis the options themselves are used by all methods. -/
theorem C85_options (p q v : Bool) :
    (flags none none p q v).equilibrium = (some p, some q) ∧ (flags none none p q v).caloric = (some p, some q, some v) :=
  ⟨rfl, rfl⟩

/-- **C85.** Enthalpy and entropy follow a `caloric_basis` if the `equilibrium_basis` has the same name, or if it is
`Hvap`. Partial: they ignore all other choices, see below. -/
theorem C85_caloric_partial (b : Basis) (h : b ≠ .hvap) (p q v : Bool) :
    (flags (some b.name) (some b.name) p q v).caloric = (some b.meaning.1, some b.meaning.2.1, some b.meaning.2.2)
      ∧ ∀ eq : Option String, (flags eq (some "Hvap") p q v).caloric.2.2 = some true := by
  refine ⟨?_, fun _ => rfl⟩
  cases b <;> first | rfl | exact absurd rfl h

/-- **C85 fails.** A `caloric_basis` does not select what the caloric methods use: they read the flags of the
equilibrium basis. -/
theorem C85_caloric_fails : ∃ (b : Basis) (eq : Option String) (p q v : Bool),
    (flags eq (some b.name) p q v).caloric ≠ (some b.meaning.1, some b.meaning.2.1, some b.meaning.2.2) :=
  ⟨.psat, some "Poynting", false, false, false, by decide⟩

/-- **C85 fails.** A misspelled basis is accepted, and leaves the attribute that `phis` reads undefined. -/
theorem C85_unknown_basis_fails : (flags (some "poynting") none true true false).equilibrium = (none, none) := rfl

example := C85_equilibrium .both (by decide) (some "Hvap") false false true
example := C85_caloric_partial .poynting (by decide) false true true

/-! ### The solid -/

/-- Options of a `GibbsExcessSolid` (3390-3400). -/
structure SolidArgs (M E : Type) where
  /-- `GibbsExcessModel` -/
  model : Option M
  /-- `eos_pure_instances` -/
  eos : Option E
  (usePoynting usePhiSat : Bool)

/-- What `__init__` of the liquid is called with (3401-3404); `none` is the default of that method. -/
structure LiquidArgs (M E : Type) where
  (model : Option M) (eos : Option E)
  (usePoynting usePhiSat : Bool)

/-- `GibbsExcessSolid.__init__` (3401-3404). -/
def solidInit {M E : Type} (a : SolidArgs M E) : LiquidArgs M E where
  model := none
  eos := none
  usePoynting := a.usePoynting
  usePhiSat := false

/-- **C85.** A solid uses Poynting factors if asked to. -/
theorem C85_solid_partial {M E : Type} (a : SolidArgs M E) : (solidInit a).usePoynting = a.usePoynting := rfl

/-- **C85 fails.** The excess Gibbs energy model, the equations of state and `use_phis_sat` given to a solid are
dropped. -/
theorem C85_solid_fails : ∃ a : SolidArgs ℕ ℕ, (solidInit a).model ≠ a.model ∧ (solidInit a).eos ≠ a.eos
    ∧ (solidInit a).usePhiSat ≠ a.usePhiSat :=
  ⟨⟨some 1, some 1, true, true⟩, by decide, by decide, by decide⟩

example : (solidInit (⟨some 1, none, true, false⟩ : SolidArgs ℕ ℕ)).usePoynting = true := C85_solid_partial _

/-! ### Polynomial fits -/

/-- Attributes that `_set_poly_fit` of a correlation object sets (`utils/t_dependent_property.py` 2886-2911); the hook of
`VolumeLiquid` and `VolumeSolid` adds `poly_fit_Tmin_quadratic` (`volume.py` 440-461, 1829) if it succeeds. -/
def fitAttrs (volume : Bool) : List String :=
  ["poly_fit_Tmin", "poly_fit_Tmax", "poly_fit_coeffs", "poly_fit_int_coeffs", "poly_fit_T_int_T_coeffs",
    "poly_fit_log_coeff", "poly_fit_d_coeffs", "poly_fit_d2_coeffs", "poly_fit_Tmin_value", "poly_fit_Tmin_slope",
    "poly_fit_Tmin_dT2", "poly_fit_Tmax_value", "poly_fit_Tmax_slope", "poly_fit_Tmax_dT2"]
    ++ if volume then ["poly_fit_Tmin_quadratic"] else []

/-- Attributes the constructor reads from vapor pressures (354-367), volumes (390-400) and enthalpies of vaporization
(436-440) with method `POLY_FIT`. -/
def psatReads (extrapolation : String) : List String :=
  ["poly_fit_Tmin", "poly_fit_Tmin_slope", "poly_fit_Tmin_value", "poly_fit_Tmax", "poly_fit_Tmax_slope",
    "poly_fit_Tmax_value", "poly_fit_coeffs", "poly_fit_d_coeffs", "poly_fit_d2_coeffs", "DIPPR101_ABC"]
    ++ if extrapolation = "AB" then ["poly_fit_AB_high_ABC_compat"]
      else if extrapolation = "ABC" then ["DIPPR101_ABC_high"] else []
@[inherit_doc psatReads] def volumeReads : List String :=
  ["poly_fit_Tmin", "poly_fit_Tmin_slope", "poly_fit_Tmin_value", "poly_fit_Tmax", "poly_fit_Tmax_slope",
    "poly_fit_Tmax_value", "poly_fit_coeffs", "poly_fit_d_coeffs", "poly_fit_d2_coeffs", "poly_fit_Tmin_quadratic"]
@[inherit_doc psatReads] def hvapReads : List String :=
  ["poly_fit_Tmin", "poly_fit_Tmax", "poly_fit_Tc", "poly_fit_coeffs"]

/-- Whether reading the attributes from an object raises `AttributeError`, by the first missing one. -/
def firstMissing (reads attrs : List String) : Option String := reads.find? (fun a => !attrs.contains a)

/-- The part of the constructor that reads fits: `methods` are the methods of the objects, all objects of a kind having
the attributes `attrs` (351-368, 388-400, 434-440). -/
def readFits (methods : List String) (henry : Bool) (reads attrs : List String) : Except String Bool :=
  if methods.all (· == "POLY_FIT") && !henry then
    match firstMissing reads attrs with
    | some a => .error a
    | none => .ok true
  else .ok false

/-- **C85.** Volumes given by polynomials are accepted and used. -/
theorem C85_volume_fits (ms : List String) (h : ∀ m ∈ ms, m = "POLY_FIT") :
    readFits ms false volumeReads (fitAttrs true) = .ok true := by
  have h1 : ms.all (· == "POLY_FIT") = true := by
    rw [List.all_eq_true]; intro m hm; rw [h m hm]; rfl
  unfold readFits
  rw [h1]
  rfl

/-- **C85 fails.** If all vapor pressures are polynomials, the constructor raises `AttributeError`: it reads
`DIPPR101_ABC`, which nothing in the library sets. -/
theorem C85_psat_fits_fails (ms : List String) (h : ∀ m ∈ ms, m = "POLY_FIT") :
    readFits ms false (psatReads "AB") (fitAttrs false) = .error "DIPPR101_ABC" := by
  have h1 : ms.all (· == "POLY_FIT") = true := by
    rw [List.all_eq_true]; intro m hm; rw [h m hm]; rfl
  unfold readFits
  rw [h1]
  rfl

/-- **C85 fails.** The same for enthalpies of vaporization, with `poly_fit_Tc`. -/
theorem C85_hvap_fits_fails (ms : List String) (h : ∀ m ∈ ms, m = "POLY_FIT") :
    readFits ms false hvapReads (fitAttrs false) = .error "poly_fit_Tc" := by
  have h1 : ms.all (· == "POLY_FIT") = true := by
    rw [List.all_eq_true]; intro m hm; rw [h m hm]; rfl
  unfold readFits
  rw [h1]
  rfl

/-- **C85.** Any component with another method avoids the fits. -/
theorem C85_other_method (ms : List String) (henry : Bool) (reads attrs : List String)
    (h : (∃ m ∈ ms, m ≠ "POLY_FIT") ∨ henry = true) : readFits ms henry reads attrs = .ok false := by
  unfold readFits
  rw [if_neg]
  intro hc
  rw [Bool.and_eq_true, List.all_eq_true] at hc
  rcases h with ⟨m, hm, hne⟩ | h
  · exact hne (by simpa using hc.1 m hm)
  · rw [h] at hc; simp at hc

example : ∀ m ∈ ["POLY_FIT", "POLY_FIT"], m = "POLY_FIT" := by simp
example : ∃ m ∈ ["POLY_FIT", "EXP_POLY_FIT"], m ≠ "POLY_FIT" := ⟨"EXP_POLY_FIT", by simp, by decide⟩

/-! ### `to` -/

/-- Temperature and pressure of the phase `to` returns (587-602); `none` inside is an attribute that is not set, `none`
outside the `ValueError`. `solveP T V` and `solveT P V` are the results of the secant solvers. -/
def toTP (solveP solveT : ℝ → ℝ → ℝ) (T P V : Option ℝ) : Option (Option ℝ × Option ℝ) :=
  match T with
  | some T =>
    match P, V with
    | some P, _ => some (some T, some P)
    | none, some V => some (none, some (solveP T V))
    | none, none => some (none, none)
  | none =>
    match P, V with
    | some P, some V => some (some (solveT P V), none)
    | _, _ => none

/-- **C85.** Given temperature and pressure, `to` returns a phase at that state, as `to_TP_zs` does. Partial: other pairs
leave attributes unset. -/
theorem C85_to_partial (sP sT : ℝ → ℝ → ℝ) (T P : ℝ) (V : Option ℝ) :
    toTP sP sT (some T) (some P) V = some (some T, some P) := rfl

/-- **C85 fails.** Given temperature and volume, the phase has no temperature; given pressure and volume, it has no
pressure; given a temperature only, it has neither, and no exception is raised. -/
theorem C85_to_fails (sP sT : ℝ → ℝ → ℝ) (T P V : ℝ) :
    (∃ p, toTP sP sT (some T) none (some V) = some (none, p))
      ∧ (∃ t, toTP sP sT none (some P) (some V) = some (t, none))
      ∧ toTP sP sT (some T) none none = some (none, none) :=
  ⟨⟨_, rfl⟩, ⟨_, rfl⟩, rfl⟩

example : toTP (fun _ _ => 0) (fun _ _ => 0) (some 300) (some 100000) none = some (some 300, some 100000) :=
  C85_to_partial _ _ _ _ _

/-! ### Stored values -/

/-- Stored values that `transfer_data` handles (665-704). -/
inductive Q
  | Psats | dPsats | d2Psats | lnPsats | rPsats | lnHenry | dlnHenry | d2lnHenry | Vms | dVms | d2Vms | Cpigs | intCpT | intCp
  deriving DecidableEq

/-- Which values depend on what: how a quantity is computed from temperature and composition. -/
abbrev Env := Q → ℝ → List ℝ → List ℝ

/-- A phase: state, identity of the list of fractions, stored values, flags, and the state of the activity model. -/
structure Ph where
  T : ℝ
  zs : List ℝ
  zsId : ℕ
  stored : Q → Option (List ℝ)
  henry : Bool
  indep : Bool
  ge : ℝ × List ℝ

/-- A `try` block that copies attributes in order: the first missing one ends it. -/
def copySeq (old : Q → Option (List ℝ)) : List Q → (Q → Option (List ℝ)) → (Q → Option (List ℝ))
  | [], new => new
  | q :: qs, new =>
    match old q with
    | none => new
    | some v => copySeq old qs (Function.update new q (some v))

/-- Several `try` blocks one after the other. -/
def copyAll (old : Q → Option (List ℝ)) (blocks : List (List Q)) (new : Q → Option (List ℝ)) : Q → Option (List ℝ) :=
  blocks.foldl (fun n b => copySeq old b n) new

/-- The blocks of 666-704. -/
def blocks (henry : Bool) : List (List Q) :=
  (if henry then [[.lnHenry, .dlnHenry, .d2lnHenry]] else [[.Psats, .dPsats, .d2Psats], [.lnPsats, .rPsats]])
    ++ [[.Vms, .dVms, .d2Vms], [.Cpigs], [.intCpT], [.intCp]]

/-- `to_TP_zs` (565-574) with `transfer_data` (607-707). -/
noncomputable def toTPzs (s : Ph) (T : ℝ) (zs : List ℝ) (zsId : ℕ) : Ph :=
  open Classical in
  let T_equal := T = s.T
  { T := T
    zs := zs
    zsId := zsId
    stored := if T_equal then copyAll s.stored (blocks s.henry) (fun _ => none) else fun _ => none
    henry := s.henry
    indep := s.indep
    ge := if T_equal ∧ (s.indep = true ∨ s.zsId = zsId) then s.ge else (T, zs) }

/-- A method with a stored value (for example 890-925): return it, or compute and store it. -/
def ask (env : Env) (s : Ph) (q : Q) : List ℝ × Ph :=
  match s.stored q with
  | some v => (v, s)
  | none =>
    let v := env q s.T s.zs
    (v, { s with stored := Function.update s.stored q (some v) })

/-- Operations on a phase. -/
inductive Op
  | move (T : ℝ) (zs : List ℝ) (zsId : ℕ)
  | ask (q : Q)

/-- Run one operation. -/
noncomputable def step (env : Env) (s : Ph) : Op → Ph
  | .move T zs i => toTPzs s T zs i
  | .ask q => (ask env s q).2

/-- Every stored value is the one that would be computed. -/
def Sound (env : Env) (s : Ph) : Prop := ∀ q v, s.stored q = some v → v = env q s.T s.zs

/-- What a phase without (or with) Henry's law components may assume: volumes and ideal gas functions depend on
temperature only, and so do the vapor pressures or the matrices of Henry's law constants. -/
def Local (env : Env) (henry : Bool) : Prop :=
  ∀ q, (∃ b ∈ blocks henry, q ∈ b) → ∀ T zs zs', env q T zs = env q T zs'

theorem copySeq_from (old : Q → Option (List ℝ)) (qs : List Q) (new : Q → Option (List ℝ)) (q : Q) (v : List ℝ)
    (h : copySeq old qs new q = some v) : new q = some v ∨ (q ∈ qs ∧ old q = some v) := by
  induction qs generalizing new with
  | nil => exact .inl h
  | cons a qs ih =>
    unfold copySeq at h
    cases ha : old a with
    | none => rw [ha] at h; exact .inl h
    | some w =>
      rw [ha] at h
      rcases ih _ h with h1 | ⟨h1, h2⟩
      · by_cases hq : q = a
        · subst hq
          rw [Function.update_self] at h1
          exact .inr ⟨List.mem_cons_self, by rw [ha, h1]⟩
        · rw [Function.update_of_ne hq] at h1
          exact .inl h1
      · exact .inr ⟨List.mem_cons_of_mem _ h1, h2⟩

theorem copyAll_from (old : Q → Option (List ℝ)) (bs : List (List Q)) (new : Q → Option (List ℝ)) (q : Q) (v : List ℝ)
    (h : copyAll old bs new q = some v) : new q = some v ∨ ((∃ b ∈ bs, q ∈ b) ∧ old q = some v) := by
  unfold copyAll at h
  induction bs generalizing new with
  | nil => exact .inl h
  | cons b bs ih =>
    rw [List.foldl_cons] at h
    rcases ih _ h with h1 | ⟨⟨b', hb, hq⟩, h2⟩
    · rcases copySeq_from old b new q v h1 with h3 | ⟨h3, h4⟩
      · exact .inl h3
      · exact .inr ⟨⟨b, List.mem_cons_self, h3⟩, h4⟩
    · exact .inr ⟨⟨b', List.mem_cons_of_mem _ hb, hq⟩, h2⟩

/-- **C85.** Moving a phase to another state takes over no stale value, if volumes do not depend on composition. -/
theorem C85_move (env : Env) (s : Ph) (T : ℝ) (zs : List ℝ) (i : ℕ) (hl : Local env s.henry) (h : Sound env s) :
    Sound env (toTPzs s T zs i) := by
  classical
  intro q v hv
  unfold toTPzs at hv ⊢
  dsimp only at hv ⊢
  by_cases hT : T = s.T
  · rw [if_pos hT] at hv
    rcases copyAll_from _ _ _ _ _ hv with h1 | ⟨h1, h2⟩
    · cases h1
    · rw [h q v h2, hT]
      exact hl q h1 _ _ _
  · rw [if_neg hT] at hv
    cases hv

theorem ask_henry (env : Env) (s : Ph) (q : Q) : s.henry = (step env s (.ask q)).henry := by
  show s.henry = (ask env s q).2.henry
  unfold ask
  split <;> rfl

theorem ask_sound (env : Env) (s : Ph) (q : Q) (h : Sound env s) : Sound env (step env s (.ask q)) := by
  show Sound env (ask env s q).2
  unfold ask
  split
  · exact h
  · intro q' v hv
    dsimp only at hv ⊢
    by_cases e : q' = q
    · subst e
      rw [Function.update_self] at hv
      exact (Option.some.inj hv).symm
    · rw [Function.update_of_ne e] at hv
      exact h q' v hv

/-- **C85.** So after any sequence of moves and calls every call returns what a new phase at that state would compute. -/
theorem C85_calls (env : Env) (s : Ph) (hl : Local env s.henry) (h : Sound env s) (ops : List Op) (q : Q) :
    (ask env (ops.foldl (step env) s) q).1
      = env q (ops.foldl (step env) s).T (ops.foldl (step env) s).zs := by
  have key : ∀ (ops : List Op) (s : Ph), Local env s.henry → Sound env s → Sound env (ops.foldl (step env) s) := by
    intro ops
    induction ops with
    | nil => exact fun _ _ h => h
    | cons o ops ih =>
      intro s hl h
      rw [List.foldl_cons]
      cases o with
      | move T zs i => exact ih _ hl (C85_move env s T zs i hl h)
      | ask q => exact ih _ (ask_henry env s q ▸ hl) (ask_sound env s q h)
  have h1 := key ops s hl h
  unfold ask
  cases hq : (ops.foldl (step env) s).stored q with
  | some v => exact h1 q v hq
  | none => rfl

/-- **C85.** The activity model is at the temperature of the phase, and at its composition unless it does not depend on
composition, if it was so before and equal identity means equal fractions. -/
theorem C85_model (s : Ph) (T : ℝ) (zs : List ℝ) (i : ℕ) (hid : s.zsId = i → zs = s.zs)
    (h : s.ge.1 = s.T ∧ (s.indep = true ∨ s.ge.2 = s.zs)) :
    (toTPzs s T zs i).ge.1 = T ∧ (s.indep = true ∨ (toTPzs s T zs i).ge.2 = zs) := by
  classical
  unfold toTPzs
  dsimp only
  by_cases hc : T = s.T ∧ (s.indep = true ∨ s.zsId = i)
  · rw [if_pos hc]
    refine ⟨h.1.trans hc.1.symm, ?_⟩
    rcases hc.2 with h1 | h1
    · exact .inl h1
    · rcases h.2 with h2 | h2
      · exact .inl h2
      · exact .inr (h2.trans (hid h1).symm)
  · rw [if_neg hc]
    exact ⟨rfl, .inr rfl⟩

/-- A phase with one stored value. -/
noncomputable def demoPh (q : Q) (v : List ℝ) (henry : Bool) : Ph where
  T := 300
  zs := [1 / 4, 3 / 4]
  zsId := 0
  stored := fun q' => if q' = q then some v else none
  henry := henry
  indep := false
  ge := (300, [1 / 4, 3 / 4])

/-- **C85.** A stored value that does not depend on composition is kept when only composition or pressure changes. -/
theorem C85_keeps (v : List ℝ) (zs : List ℝ) :
    (toTPzs (demoPh .Vms v false) 300 zs 1).stored .Vms = some v
      ∧ (toTPzs (demoPh .Psats v false) 300 zs 1).stored .Psats = some v
      ∧ (toTPzs (demoPh .lnHenry v true) 300 zs 1).stored .lnHenry = some v
      ∧ (toTPzs (demoPh .Psats v true) 300 zs 1).stored .Psats = none
      ∧ (toTPzs (demoPh .Vms v false) 301 zs 1).stored .Vms = none := by
  classical
  have hne : ¬ ((301 : ℝ) = 300) := by norm_num
  refine ⟨?_, ?_, ?_, ?_, ?_⟩ <;>
    simp [toTPzs, demoPh, copyAll, copySeq, blocks, hne]

/-- **C85 fails.** With volumes from equations of state (1271-1285), the volume of a component above its critical
temperature is computed at its vapor pressure, which for a Henry's law component depends on composition; the stored
volumes are kept when the composition changes, and are then wrong. -/
theorem C85_stale_volume_fails : ∃ (env : Env) (s : Ph) (zs : List ℝ), Sound env s ∧ s.henry = true
    ∧ (∀ T zs zs', env .lnHenry T zs = env .lnHenry T zs')
    ∧ (ask env (toTPzs s s.T zs 1) .Vms).1 ≠ env .Vms s.T zs := by
  classical
  refine ⟨fun q _ zs => if q = .Vms then zs else [], demoPh .Vms [1 / 4, 3 / 4] true, [1 / 2, 1 / 2], ?_, rfl, ?_, ?_⟩
  · intro q v hv
    have hq : q = .Vms := by
      by_contra hq
      simp [demoPh, hq] at hv
    subst hq
    simp only [demoPh, if_true] at hv ⊢
    exact (Option.some.inj hv).symm
  · intro T zs zs'
    simp
  · simp [toTPzs, ask, demoPh, copyAll, copySeq, blocks]

example : ∃ (env : Env) (s : Ph), Local env s.henry ∧ Sound env s ∧ s.stored .Vms ≠ none
    ∧ ∃ T zs zs', env .Psats T zs ≠ env .Psats T zs' := by
  refine ⟨fun q _ zs => if q = .Vms then [7] else if q = .Psats then zs else [], demoPh .Vms [7] true, ?_, ?_, ?_, 1, [], [1], by simp⟩
  · rintro q ⟨b, hb, hq⟩ T zs zs'
    have : q ≠ .Psats := by
      rintro rfl
      simp only [demoPh, blocks, if_true, List.mem_append, List.mem_cons, List.not_mem_nil, or_false] at hb
      rcases hb with rfl | rfl | rfl | rfl | rfl <;> simp at hq
    simp [this]
  · intro q v hv
    by_cases hq : q = .Vms
    · subst hq
      simp only [demoPh, if_true] at hv ⊢
      exact (Option.some.inj hv).symm
    · simp [demoPh, hq] at hv
  · simp [demoPh]

/-! ### Exceptions while a list is filled -/

/-- `Psats` (915-918) and `phis_sat` (1764-1773): the list is stored before it is filled; `evals` are the results of the
components, `none` an exception. Returns the result of the call and what is stored after it. -/
def fill (stored : Option (List ℝ)) (evals : List (Option ℝ)) : Option (List ℝ) × Option (List ℝ) :=
  match stored with
  | some v => (some v, some v)
  | none =>
    let got := (evals.takeWhile (·.isSome)).filterMap id
    if evals.all (·.isSome) then (some got, some got) else (none, some got)

/-- **C85.** If no component fails, all values are returned, and the same ones again. -/
theorem C85_fill (evals : List (Option ℝ)) (h : ∀ e ∈ evals, e.isSome = true) :
    (fill none evals).1 = some (evals.filterMap id) ∧ (fill (fill none evals).2 evals).1 = some (evals.filterMap id) := by
  have h1 : evals.all (·.isSome) = true := List.all_eq_true.2 h
  have h2 : evals.takeWhile (·.isSome) = evals := by
    clear h1
    induction evals with
    | nil => rfl
    | cons a l ih =>
      rw [List.takeWhile_cons, if_pos (h a List.mem_cons_self), ih fun e he => h e (List.mem_cons_of_mem _ he)]
  unfold fill
  dsimp only
  rw [h1, h2, if_pos rfl]
  exact ⟨rfl, rfl⟩

/-- **C85 fails.** If a component fails, the first call raises the exception, but the next one returns a list that is
too short. -/
theorem C85_fill_fails : ∃ evals : List (Option ℝ), (fill none evals).1 = none
    ∧ ∃ v, (fill (fill none evals).2 evals).1 = some v ∧ v.length ≠ evals.length :=
  ⟨[some 1, none], by simp [fill], [1], by simp [fill], by simp⟩

example : ∀ e ∈ [some (1 : ℝ), some 2], e.isSome = true := by simp

/-! ## C86: pure component data -/

open Verif.Saturation (horner polyder hornerBoth hasDerivAt_horner horner_val hasDerivAt_val val)

/-- A polynomial fit of a liquid volume: limits, coefficients, value and slope at the upper limit, and the quadratic
used below the lower limit (390-400). -/
structure Fit where
  (Tmin Tmax : ℝ)
  (coeffs quad : List ℝ)
  (maxSlope maxValue : ℝ)

namespace Fit
variable (f : Fit) (T : ℝ)

/-- `_Vms_sat_at` (1239-1252). -/
noncomputable def V : ℝ :=
  open Classical in
  if T < f.Tmin then horner f.quad T
  else if f.Tmax < T then (T - f.Tmax) * f.maxSlope + f.maxValue
  else horner f.coeffs T

/-- `_dVms_sat_dT_at` (1298-1308). -/
noncomputable def dV : ℝ :=
  open Classical in
  if T < f.Tmin then (hornerBoth f.quad T).2
  else if f.Tmax < T then f.maxSlope
  else horner (polyder f.coeffs) T

/-- `d2Vms_sat_dT2` (1346-1354); the second derivative of `horner_and_der2` is that of the quadratic. -/
noncomputable def d2V : ℝ :=
  open Classical in
  if f.Tmin < T ∧ T < f.Tmax then horner (polyder (polyder f.coeffs)) T
  else if T < f.Tmin then horner (polyder (polyder f.quad)) T
  else 0

/-- What `_set_poly_fit` stores (`t_dependent_property.py` 2903-2904): value and slope of the polynomial. -/
def Ok : Prop := f.Tmin ≤ f.Tmax ∧ f.maxValue = horner f.coeffs f.Tmax ∧ f.maxSlope = horner (polyder f.coeffs) f.Tmax

end Fit

theorem horner_deriv (cs : List ℝ) (x : ℝ) : HasDerivAt (horner cs) (horner (polyder cs) x) x := by
  have e : horner cs = fun x => val x cs := by funext y; exact horner_val cs y
  rw [e, horner_val]
  exact hasDerivAt_val cs x

theorem hornerBoth_polyder (cs : List ℝ) (x : ℝ) : (hornerBoth cs x).2 = horner (polyder cs) x :=
  (hasDerivAt_horner cs x).unique (horner_deriv cs x)

section fit
variable {f : Fit} {T : ℝ}

theorem V_low (h : T < f.Tmin) : f.V T = horner f.quad T ∧ f.dV T = horner (polyder f.quad) T := by
  unfold Fit.V Fit.dV
  rw [if_pos h, if_pos h, hornerBoth_polyder]
  exact ⟨rfl, rfl⟩

theorem V_mid (h1 : f.Tmin ≤ T) (h2 : T ≤ f.Tmax) : f.V T = horner f.coeffs T ∧ f.dV T = horner (polyder f.coeffs) T := by
  unfold Fit.V Fit.dV
  rw [if_neg (not_lt.2 h1), if_neg (not_lt.2 h1), if_neg (not_lt.2 h2), if_neg (not_lt.2 h2)]
  exact ⟨rfl, rfl⟩

theorem V_high (h : f.Tmin ≤ f.Tmax) (h2 : f.Tmax < T) : f.V T = (T - f.Tmax) * f.maxSlope + f.maxValue
    ∧ f.dV T = f.maxSlope := by
  unfold Fit.V Fit.dV
  rw [if_neg (not_lt.2 (h.trans h2.le)), if_neg (not_lt.2 (h.trans h2.le)), if_pos h2, if_pos h2]
  exact ⟨rfl, rfl⟩

/-- **C86.** Away from the limits, `dVms_sat_dT` is the derivative of `Vms_sat`, and `d2Vms_sat_dT2` that of
`dVms_sat_dT`. -/
theorem C86_volume_derivatives (hf : f.Ok) (h1 : T ≠ f.Tmin) (h2 : T ≠ f.Tmax) :
    HasDerivAt f.V (f.dV T) T ∧ HasDerivAt f.dV (f.d2V T) T := by
  rcases lt_or_gt_of_ne h1 with h | h
  · have hn : ∀ᶠ t in 𝓝 T, t < f.Tmin := gt_mem_nhds h
    have e1 : f.V =ᶠ[𝓝 T] horner f.quad := by filter_upwards [hn] with t ht using (V_low ht).1
    have e2 : f.dV =ᶠ[𝓝 T] horner (polyder f.quad) := by filter_upwards [hn] with t ht using (V_low ht).2
    have e3 : f.d2V T = horner (polyder (polyder f.quad)) T := by
      unfold Fit.d2V
      rw [if_neg (fun hc => absurd hc.1 (not_lt.2 h.le)), if_pos h]
    rw [(V_low h).2, e3]
    exact ⟨(horner_deriv _ T).congr_of_eventuallyEq e1, (horner_deriv _ T).congr_of_eventuallyEq e2⟩
  · rcases lt_or_gt_of_ne h2 with h' | h'
    · have hn : ∀ᶠ t in 𝓝 T, f.Tmin < t ∧ t < f.Tmax := (lt_mem_nhds h).and (gt_mem_nhds h')
      have e1 : f.V =ᶠ[𝓝 T] horner f.coeffs := by filter_upwards [hn] with t ht using (V_mid ht.1.le ht.2.le).1
      have e2 : f.dV =ᶠ[𝓝 T] horner (polyder f.coeffs) := by
        filter_upwards [hn] with t ht using (V_mid ht.1.le ht.2.le).2
      have e3 : f.d2V T = horner (polyder (polyder f.coeffs)) T := by
        unfold Fit.d2V
        rw [if_pos ⟨h, h'⟩]
      rw [(V_mid h.le h'.le).2, e3]
      exact ⟨(horner_deriv _ T).congr_of_eventuallyEq e1, (horner_deriv _ T).congr_of_eventuallyEq e2⟩
    · have hn : ∀ᶠ t in 𝓝 T, f.Tmax < t := lt_mem_nhds h'
      have e1 : f.V =ᶠ[𝓝 T] fun t => (t - f.Tmax) * f.maxSlope + f.maxValue := by
        filter_upwards [hn] with t ht using (V_high hf.1 ht).1
      have e2 : f.dV =ᶠ[𝓝 T] fun _ => f.maxSlope := by filter_upwards [hn] with t ht using (V_high hf.1 ht).2
      have e3 : f.d2V T = 0 := by
        unfold Fit.d2V
        rw [if_neg (fun hc => absurd hc.2 (not_lt.2 h'.le)), if_neg (not_lt.2 h.le)]
      rw [(V_high hf.1 h').2, e3]
      refine ⟨HasDerivAt.congr_of_eventuallyEq ?_ e1, (hasDerivAt_const T _).congr_of_eventuallyEq e2⟩
      exact ((((hasDerivAt_id' T).sub_const f.Tmax).mul_const f.maxSlope).add_const _).congr_deriv (one_mul _)

/-- **C86.** At the upper limit the volume is continuous and differentiable too: the line continues the polynomial with
its slope. -/
theorem C86_upper_limit (hf : f.Ok) (h : f.Tmin < f.Tmax) : HasDerivAt f.V (f.dV f.Tmax) f.Tmax := by
  obtain ⟨-, hv, hs⟩ := hf
  rw [(V_mid h.le le_rfl).2]
  have hl : HasDerivWithinAt f.V (horner (polyder f.coeffs) f.Tmax) (Set.Iic f.Tmax) f.Tmax := by
    refine ((horner_deriv f.coeffs f.Tmax).hasDerivWithinAt).congr_of_eventuallyEq ?_ (V_mid h.le le_rfl).1
    have hn : ∀ᶠ t in 𝓝[Set.Iic f.Tmax] f.Tmax, f.Tmin < t := nhdsWithin_le_nhds (lt_mem_nhds h)
    filter_upwards [hn, self_mem_nhdsWithin] with t h1 h2 using (V_mid h1.le h2).1
  have hr : HasDerivWithinAt f.V (horner (polyder f.coeffs) f.Tmax) (Set.Ici f.Tmax) f.Tmax := by
    have h3 : HasDerivAt (fun t => (t - f.Tmax) * f.maxSlope + f.maxValue) f.maxSlope f.Tmax :=
      ((((hasDerivAt_id' f.Tmax).sub_const f.Tmax).mul_const f.maxSlope).add_const _).congr_deriv (one_mul _)
    rw [← hs]
    have e : ∀ t ∈ Set.Ici f.Tmax, f.V t = (t - f.Tmax) * f.maxSlope + f.maxValue := by
      intro t ht
      rcases eq_or_lt_of_le (show f.Tmax ≤ t from ht) with h4 | h4
      · rw [← h4, (V_mid h.le le_rfl).1, hv]; ring
      · exact (V_high h.le h4).1
    exact h3.hasDerivWithinAt.congr e (e _ Set.self_mem_Ici)
  have h5 := hl.union hr
  rw [Set.Iic_union_Ici, hasDerivWithinAt_univ] at h5
  exact h5

end fit

/-- A quadratic fit between 1 and 2. -/
def demoFit : Fit where
  Tmin := 1
  Tmax := 2
  coeffs := [1, 0, 0]
  quad := [1, 0]
  maxSlope := 4
  maxValue := 4

theorem demoFit_ok : demoFit.Ok := by
  refine ⟨by norm_num [demoFit], ?_, ?_⟩ <;> simp [demoFit, horner, polyder] <;> norm_num

example : demoFit.Ok ∧ demoFit.Tmin < demoFit.Tmax ∧ (3 / 2 : ℝ) ≠ demoFit.Tmin ∧ (3 / 2 : ℝ) ≠ demoFit.Tmax :=
  ⟨demoFit_ok, by norm_num [demoFit], by norm_num [demoFit], by norm_num [demoFit]⟩

/-- **C86 fails.** At the limits of the fit, where the volume and its first derivative are those of the polynomial, the
second derivative is zero instead. -/
theorem C86_limit_fails : ∃ f : Fit, f.Ok ∧ f.V f.Tmin = horner f.coeffs f.Tmin
    ∧ f.dV f.Tmin = horner (polyder f.coeffs) f.Tmin
    ∧ f.d2V f.Tmin ≠ horner (polyder (polyder f.coeffs)) f.Tmin := by
  have hle : demoFit.Tmin ≤ demoFit.Tmax := by norm_num [demoFit]
  refine ⟨demoFit, demoFit_ok, (V_mid le_rfl hle).1, (V_mid le_rfl hle).2, ?_⟩
  have e : demoFit.d2V demoFit.Tmin = 0 := by
    unfold Fit.d2V
    rw [if_neg (fun hc => absurd hc.1 (lt_irrefl _)), if_neg (lt_irrefl _)]
  rw [e]
  simp [demoFit, horner, polyder]

/-! ### Fugacity coefficients at saturation -/

/-- The pure component equation of state of a component: critical temperature, `phi_sat` and `dphi_sat_dT`, `none` for an
exception. -/
structure PureEos where
  Tc : ℝ
  (phi dphi : ℝ → Option ℝ)

/-- One entry of `phis_sat` (1766-1772) and `dphis_sat_dT` (1805-1811). -/
noncomputable def phiAt (e : PureEos) (T : ℝ) : Option ℝ :=
  open Classical in
  match e.phi (min T e.Tc) with
  | some v => some v
  | none => if T < 1 / 10 * e.Tc then some 1 else none
@[inherit_doc phiAt] noncomputable def dphiAt (e : PureEos) (T : ℝ) : Option ℝ :=
  open Classical in
  match e.dphi (min T e.Tc) with
  | some v => some v
  | none => if T < 1 / 10 * e.Tc then some 0 else none

/-- **C86.** Below the critical temperature, `dphis_sat_dT` is the derivative of `phis_sat` if it is so for the equation
of state; where both fail below a tenth of the critical temperature, so do the values used instead. Partial: above the
critical temperature it is wrong, see below. -/
theorem C86_phi_sat_partial (e : PureEos) (T : ℝ) (hT : T < e.Tc) :
    (∀ (F : ℝ → ℝ) (F' : ℝ), (∀ᶠ t in 𝓝 T, e.phi t = some (F t)) → HasDerivAt F F' T → e.dphi T = some F' →
      dphiAt e T = some F' ∧ ∀ᶠ t in 𝓝 T, phiAt e t = some (F t))
    ∧ ((∀ᶠ t in 𝓝 T, e.phi t = none) → e.dphi T = none → T < 1 / 10 * e.Tc →
      dphiAt e T = some 0 ∧ ∀ᶠ t in 𝓝 T, phiAt e t = some 1) := by
  have hn : ∀ᶠ t in 𝓝 T, t < e.Tc := gt_mem_nhds hT
  refine ⟨fun F F' h1 h2 h3 => ⟨?_, ?_⟩, fun h1 h2 h3 => ⟨?_, ?_⟩⟩
  · unfold dphiAt; rw [min_eq_left hT.le, h3]
  · filter_upwards [h1, hn] with t ht ht'
    unfold phiAt; rw [min_eq_left ht'.le, ht]
  · unfold dphiAt; rw [min_eq_left hT.le, h2]; simp only [if_pos h3]
  · have hn2 : ∀ᶠ t in 𝓝 T, t < 1 / 10 * e.Tc := gt_mem_nhds h3
    filter_upwards [h1, hn, hn2] with t ht ht' ht2
    unfold phiAt; rw [min_eq_left ht'.le, ht]; simp only [if_pos ht2]

/-- **C86 fails.** Above the critical temperature `phis_sat` is constant but `dphis_sat_dT` is the slope at the critical
temperature. -/
theorem C86_phi_sat_fails : ∃ (e : PureEos) (T F' : ℝ) (F : ℝ → ℝ), (∀ t, phiAt e t = some (F t))
    ∧ dphiAt e T = some F' ∧ ¬ HasDerivAt F F' T := by
  refine ⟨⟨1, fun t => some t, fun _ => some 1⟩, 2, 1, fun t => min t 1, fun t => rfl, rfl, fun h => ?_⟩
  have e : (fun t : ℝ => min t 1) =ᶠ[𝓝 2] fun _ => 1 := by
    filter_upwards [lt_mem_nhds (show (1 : ℝ) < 2 by norm_num)] with t ht using min_eq_right ht.le
  have h2 := h.unique ((hasDerivAt_const (2 : ℝ) (1 : ℝ)).congr_of_eventuallyEq e)
  norm_num at h2

example : ∃ (e : PureEos) (T : ℝ) (F : ℝ → ℝ) (F' : ℝ), T < e.Tc ∧ (∀ᶠ t in 𝓝 T, e.phi t = some (F t))
    ∧ HasDerivAt F F' T ∧ e.dphi T = some F' :=
  ⟨⟨2, fun t => some t, fun _ => some 1⟩, 1, fun t => t, 1, by norm_num, Eventually.of_forall fun _ => rfl,
    hasDerivAt_id' 1, rfl⟩

/-! ### Volumes from equations of state -/

/-- `Vms_sat` (1266-1292) and `Vms_sat_at` (1255-1258) of one component, at a temperature: volume of the fit, of the
equation of state, and of the correlation. -/
def vSat (polyFit eosVolume : Bool) (fit eos corr : ℝ) : ℝ := if polyFit then fit else if eosVolume then eos else corr
@[inherit_doc vSat] def vSatAt (polyFit : Bool) (fit corr : ℝ) : ℝ := if polyFit then fit else corr

/-- **C86.** The two agree unless volumes of equations of state are used; a fit is never used together with them (388). -/
theorem C86_volumes_partial (polyFit : Bool) (fit eos corr : ℝ) : vSat polyFit false fit eos corr = vSatAt polyFit fit corr := by
  cases polyFit <;> rfl

/-- **C86 fails.** With `use_eos_volume`, the methods that take a temperature (`Poyntings_at`, `phis_at`, `dphis_dT_at`)
use another volume than the ones without, and so do all temperature derivatives. -/
theorem C86_volumes_fails : ∃ fit eos corr : ℝ, vSat false true fit eos corr ≠ vSatAt false fit corr :=
  ⟨0, 1, 2, by norm_num [vSat, vSatAt]⟩

example : vSat true false 1 2 3 = 1 := rfl

/-! ### Henry's law -/

variable {N : ℕ}

/-- The solvents that count for component `i`: with `skip` (`solvents_with_parameters`) those whose entry is zero are left
out. -/
noncomputable def solvents (lnH : Fin N → Fin N → ℝ) (isH : Fin N → Bool) (skip : Bool) (i : Fin N) : Finset (Fin N) :=
  open Classical in
  Finset.univ.filter (fun j => isH j = false ∧ (skip = true → lnH i j ≠ 0))

/-- `Henry_constants` of the `chemicals` package as documented: the logarithm for component `i` is the average of row `i`
of the matrix over the solvents, weighted by mole fraction. -/
noncomputable def henry (lnH : Fin N → Fin N → ℝ) (zs : Fin N → ℝ) (isH : Fin N → Bool) (skip : Bool) (i : Fin N) : ℝ :=
  Real.exp ((∑ j ∈ solvents lnH isH skip i, zs j * lnH i j) / ∑ j ∈ solvents lnH isH skip i, zs j)

/-- Temperature derivative with the same weights (`dHenry_constants_dT`). -/
noncomputable def dHenry (lnH dlnH : Fin N → Fin N → ℝ) (zs : Fin N → ℝ) (isH : Fin N → Bool) (skip : Bool) (i : Fin N) : ℝ :=
  henry lnH zs isH skip i
    * ((∑ j ∈ solvents lnH isH skip i, zs j * dlnH i j) / ∑ j ∈ solvents lnH isH skip i, zs j)

/-- `Psats` (915-925), `lnPsats` (1078-1085), `dPsats_dT` (989-996), `dPsats_dT_over_Psats` (1177-1186). -/
noncomputable def psats (corr : Fin N → ℝ) (lnH : Fin N → Fin N → ℝ) (zs : Fin N → ℝ) (isH : Fin N → Bool) (skip : Bool)
    (i : Fin N) : ℝ := if isH i then henry lnH zs isH skip i else corr i
@[inherit_doc psats] noncomputable def lnPsats (corr : Fin N → ℝ) (lnH : Fin N → Fin N → ℝ) (zs : Fin N → ℝ)
    (isH : Fin N → Bool) (skip : Bool) (i : Fin N) : ℝ :=
  if isH i then Real.log (henry lnH zs isH skip i) else Real.log (corr i)
@[inherit_doc psats] noncomputable def dPsats (dcorr : Fin N → ℝ) (lnH dlnH : Fin N → Fin N → ℝ) (zs : Fin N → ℝ)
    (isH : Fin N → Bool) (skip : Bool) (i : Fin N) : ℝ := if isH i then dHenry lnH dlnH zs isH skip i else dcorr i
@[inherit_doc psats] noncomputable def rPsats (corr dcorr : Fin N → ℝ) (lnH dlnH : Fin N → Fin N → ℝ) (zs : Fin N → ℝ)
    (isH : Fin N → Bool) (skip : Bool) (i : Fin N) : ℝ :=
  if isH i then dHenry lnH dlnH zs isH skip i / henry lnH zs isH skip i else dcorr i / corr i

/-- **C86.** With Henry's law components the four quantities are value, logarithm, derivative and logarithmic derivative
of one function of temperature, as required of a component of module `ExcessLiquid`. -/
theorem C86_henry {corr dcorr : Fin N → ℝ → ℝ} {lnH dlnH : Fin N → Fin N → ℝ → ℝ} {zs : Fin N → ℝ} {isH : Fin N → Bool}
    {T : ℝ} (i : Fin N) (hpos : ∀ t, 0 < corr i t) (hc : HasDerivAt (corr i) (dcorr i T) T)
    (hH : ∀ i j, HasDerivAt (lnH i j) (dlnH i j T) T) :
    HasDerivAt (fun t => psats (corr · t) (fun i j => lnH i j t) zs isH false i)
        (dPsats (dcorr · T) (fun i j => lnH i j T) (fun i j => dlnH i j T) zs isH false i) T
      ∧ (∀ skip, 0 < psats (corr · T) (fun i j => lnH i j T) zs isH skip i
        ∧ lnPsats (corr · T) (fun i j => lnH i j T) zs isH skip i
          = Real.log (psats (corr · T) (fun i j => lnH i j T) zs isH skip i)
        ∧ rPsats (corr · T) (dcorr · T) (fun i j => lnH i j T) (fun i j => dlnH i j T) zs isH skip i
          = dPsats (dcorr · T) (fun i j => lnH i j T) (fun i j => dlnH i j T) zs isH skip i
            / psats (corr · T) (fun i j => lnH i j T) zs isH skip i) := by
  classical
  refine ⟨?_, fun skip => ?_⟩
  · unfold psats dPsats
    cases hi : isH i with
    | false => simpa using hc
    | true =>
      simp only [if_true]
      have hs : ∀ l : Fin N → Fin N → ℝ, solvents l isH false i = Finset.univ.filter (fun j => isH j = false) := by
        intro l
        ext j
        simp [solvents]
      unfold dHenry henry
      simp only [hs]
      have h1 := HasDerivAt.fun_sum (u := Finset.univ.filter (fun j => isH j = false))
        fun j _ => (hH i j).const_mul (zs j)
      exact (h1.div_const _).exp
  · unfold psats lnPsats rPsats dPsats
    cases hi : isH i with
    | false => simp [hpos T]
    | true => simp [henry, Real.exp_pos]

example : ∃ (isH : Fin 2 → Bool) (corr : Fin 2 → ℝ → ℝ), isH 0 = true ∧ ∀ t, 0 < corr 0 t :=
  ⟨![true, false], fun _ _ => 1, rfl, fun _ => one_pos⟩

/-- **C86 fails.** With `solvents_with_parameters`, a solvent whose entry passes through zero at some temperature is left
out there: the Henry's law constant jumps, and the derivative is not one. -/
theorem C86_henry_zero_fails : ∃ (lnH : Fin 3 → Fin 3 → ℝ → ℝ) (zs : Fin 3 → ℝ) (isH : Fin 3 → Bool),
    (∀ i j, Continuous (lnH i j)) ∧ ¬ ContinuousAt (fun t => henry (fun i j => lnH i j t) zs isH true 0) 0 := by
  classical
  refine ⟨fun _ j t => if j = 2 then 1 else t, fun _ => 1 / 3, ![true, false, false], ?_, ?_⟩
  · intro i j
    by_cases hj : j = 2
    · simp only [hj, if_true]; exact continuous_const
    · simp only [hj, if_false]; exact continuous_id
  · intro h
    have hx0 : henry (fun _ j : Fin 3 => if j = 2 then (1 : ℝ) else 0) (fun _ => 1 / 3) ![true, false, false] true 0
        = Real.exp 1 := by
      unfold henry
      have hs : solvents (fun _ j : Fin 3 => if j = 2 then (1 : ℝ) else 0) ![true, false, false] true 0 = {2} := by
        ext j
        fin_cases j <;> simp [solvents]
      rw [hs, Finset.sum_singleton, Finset.sum_singleton]
      norm_num
    have hx : ∀ t : ℝ, t ≠ 0 → henry (fun _ j : Fin 3 => if j = 2 then (1 : ℝ) else t) (fun _ => 1 / 3)
        ![true, false, false] true 0 = Real.exp ((t + 1) / 2) := by
      intro t ht
      unfold henry
      have hs : solvents (fun _ j : Fin 3 => if j = 2 then (1 : ℝ) else t) ![true, false, false] true 0 = {1, 2} := by
        ext j
        fin_cases j <;> simp [solvents, ht]
      rw [hs, Finset.sum_pair (by decide), Finset.sum_pair (by decide)]
      dsimp only
      rw [if_neg (by decide), if_pos rfl]
      congr 1
      ring
    have h1 : Tendsto (fun t : ℝ => henry (fun _ j : Fin 3 => if j = 2 then (1 : ℝ) else t) (fun _ => 1 / 3)
        ![true, false, false] true 0) (𝓝[≠] 0) (𝓝 (Real.exp 1)) := by
      have h2 := h.tendsto
      rw [hx0] at h2
      exact h2.mono_left nhdsWithin_le_nhds
    have h3 : Tendsto (fun t : ℝ => Real.exp ((t + 1) / 2)) (𝓝[≠] 0) (𝓝 (Real.exp 1)) := by
      refine h1.congr' ?_
      filter_upwards [self_mem_nhdsWithin] with t ht using hx t ht
    have h4 : Tendsto (fun t : ℝ => Real.exp ((t + 1) / 2)) (𝓝[≠] 0) (𝓝 (Real.exp (((0 : ℝ) + 1) / 2))) := by
      have h5 : Continuous fun t : ℝ => Real.exp ((t + 1) / 2) := by fun_prop
      exact (h5.tendsto 0).mono_left nhdsWithin_le_nhds
    have h6 := tendsto_nhds_unique h3 h4
    rw [Real.exp_eq_exp] at h6
    norm_num at h6

/-- Vapor pressures `phis_at` uses (1840, 852-858): `Psats_at` moves to the temperature but keeps the composition of the
phase. -/
noncomputable def psatsOfPhisAt (corr : Fin N → ℝ) (lnH : Fin N → Fin N → ℝ) (own given : Fin N → ℝ) (isH : Fin N → Bool)
    (skip : Bool) (i : Fin N) : ℝ :=
  let zs := own
  let _ := given
  psats corr lnH zs isH skip i

/-- **C86.** Without Henry's law components, `phis_at` uses the vapor pressures of the composition it is given. -/
theorem C86_phis_at_partial (corr : Fin N → ℝ) (lnH : Fin N → Fin N → ℝ) (own given : Fin N → ℝ) (skip : Bool) (i : Fin N) :
    psatsOfPhisAt corr lnH own given (fun _ => false) skip i = psats corr lnH given (fun _ => false) skip i := rfl

/-- **C86 fails.** With Henry's law components it uses those of the composition of the phase. -/
theorem C86_phis_at_fails : ∃ (lnH : Fin 3 → Fin 3 → ℝ) (own given : Fin 3 → ℝ) (isH : Fin 3 → Bool),
    psatsOfPhisAt (fun _ => 1) lnH own given isH false 0 ≠ psats (fun _ => 1) lnH given isH false 0 := by
  classical
  refine ⟨fun _ j => if j = 1 then 1 else 0, ![0, 1, 0], ![0, 0, 1], ![true, false, false], ?_⟩
  have hs : solvents (fun _ j : Fin 3 => if j = 1 then (1 : ℝ) else 0) ![true, false, false] false 0 = {1, 2} := by
    ext j
    fin_cases j <;> simp [solvents]
  have e : ∀ zs : Fin 3 → ℝ, psats (fun _ => 1) (fun _ j => if j = 1 then (1 : ℝ) else 0) zs ![true, false, false] false 0
      = Real.exp (zs 1 / (zs 1 + zs 2)) := by
    intro zs
    unfold psats henry
    rw [hs, Finset.sum_pair (by decide), Finset.sum_pair (by decide)]
    simp
  unfold psatsOfPhisAt
  dsimp only
  rw [e, e]
  simp

/-! ## C87: pressure derivatives and the Tait correction -/

/-- The pressure derivatives of an incompressible liquid (3147-3215): `big` is `INCOMPRESSIBLE_CONST`; `none` is the
`AttributeError` of a phase with `use_Tait`. -/
def dP_dV (incompressible : Bool) (big : ℝ) : Option ℝ := if incompressible then some big else none
@[inherit_doc dP_dV] noncomputable def dP_dT (incompressible : Bool) (big dV_dT : ℝ) : Option ℝ :=
  match dP_dV incompressible big with
  | some p => some (dV_dT / -p)
  | none => none
@[inherit_doc dP_dV] noncomputable def d2P_dT2 (big d2V_dT2 : ℝ) : ℝ := -d2V_dT2 / big

/-- **C87 fails.** The derivatives do not satisfy `dP_dT = -dP_dV dV_dT`: the code divides instead of multiplying. The
constant is also positive, the sign of a mechanically unstable phase. -/
theorem C87_incompressible_fails : ∃ p t : ℝ, dP_dV true (10 ^ 30) = some p ∧ dP_dT true (10 ^ 30) (1 / 10 ^ 7) = some t
    ∧ t ≠ -p * (1 / 10 ^ 7) ∧ 0 < p :=
  ⟨10 ^ 30, 1 / 10 ^ 7 / -10 ^ 30, by simp [dP_dV], by simp [dP_dT, dP_dV], by norm_num, by norm_num⟩

/-- **C87.** The sign of `dP_dT` is the opposite of that of `dV_dT`. Partial: for a stable liquid the two have the same sign. -/
theorem C87_incompressible_partial (big dV t : ℝ) (h : 0 < big) (ht : dP_dT true big dV = some t) :
    (0 < t ↔ dV < 0) ∧ (t = 0 ↔ dV = 0) := by
  have e : t = dV / -big := by
    simp only [dP_dT, dP_dV, if_true] at ht
    exact (Option.some.inj ht).symm
  rw [e]
  refine ⟨?_, ?_⟩
  · rw [div_neg, Left.neg_pos_iff, div_lt_iff₀ h, zero_mul]
  · rw [div_eq_zero_iff]
    constructor
    · rintro (h1 | h1)
      · exact h1
      · linarith
    · exact .inl

/-- **C87 fails.** With `use_Tait` the pressure derivatives raise `AttributeError`. -/
theorem C87_Tait_fails (big dV : ℝ) : dP_dV false big = none ∧ dP_dT false big dV = none := ⟨rfl, rfl⟩

example : ∃ t, dP_dT true (10 ^ 30) (-1) = some t ∧ 0 < t := ⟨-1 / -10 ^ 30, by simp [dP_dT, dP_dV], by norm_num⟩

/-- Values of one component at a temperature: Tait coefficients, volume and vapor pressure, and their temperature
derivatives. -/
structure Tait where
  (B C V Ps dB dC dV dPs : ℝ)

namespace Tait
variable (a : Tait) (T P : ℝ)

/-- `Tait_Vs` (3277). -/
noncomputable def vol : ℝ := a.V * (1 - a.C * Real.log ((a.B + P) / (a.B + a.Ps)))

/-- `dH_dP_integrals_Tait` (3335-3351). -/
noncomputable def integral : ℝ :=
  let x0 := a.B
  let x1 := P + x0
  let x2 := a.Ps
  let x3 := x0 + x2
  let x4 := 1 / x3
  let x5 := a.C
  let x6 := a.V
  let x7 := x5 * x6
  let x8 := T * a.dV
  let x9 := x5 * x8
  let x10 := T * a.dC
  let x11 := x0 * x6
  let x12 := T * x7
  let x13 := -x0 * x7 + x0 * x9 + x10 * x11 + x12 * a.dB
  let x14 := x2 * x6
  let x15 := x4 * (x0 * x8 + x10 * x14 - x11 + x12 * a.dPs + x13 - x14 - x2 * x7 + x2 * x8 + x2 * x9)
  let v := -P * x15 + P * (x10 * x6 - x7 + x9) * Real.log (x1 * x4) + x13 * Real.log x1 - x13 * Real.log x3 + x15 * x2
  v

/-- Temperature derivative of the Tait volume: quotient and product rules. -/
noncomputable def dvol : ℝ :=
  a.dV * (1 - a.C * Real.log ((a.B + P) / (a.B + a.Ps)))
    - a.V * (a.dC * Real.log ((a.B + P) / (a.B + a.Ps)) + a.C * (a.dB / (a.B + P) - (a.dB + a.dPs) / (a.B + a.Ps)))

end Tait

/-- `dvol` is the derivative of the volume along the functions of temperature. -/
theorem C87_dvol {B C V Ps dB dC dV dPs : ℝ → ℝ} {T P : ℝ} (hB : HasDerivAt B (dB T) T) (hC : HasDerivAt C (dC T) T)
    (hV : HasDerivAt V (dV T) T) (hPs : HasDerivAt Ps (dPs T) T) (h1 : 0 < B T + P) (h2 : 0 < B T + Ps T) :
    HasDerivAt (fun t => Tait.vol ⟨B t, C t, V t, Ps t, dB t, dC t, dV t, dPs t⟩ P)
      (Tait.dvol ⟨B T, C T, V T, Ps T, dB T, dC T, dV T, dPs T⟩ P) T := by
  unfold Tait.vol Tait.dvol
  dsimp only
  have hl := (((hB.add_const P).fun_div (hB.fun_add hPs) h2.ne').log (by positivity))
  refine (hV.fun_mul ((hC.fun_mul hl).const_sub 1)).congr_deriv ?_
  generalize Real.log ((B T + P) / (B T + Ps T)) = L
  field_simp
  ring

/-- **C87.** `dH_dP_integrals_Tait` is the integral of `V - T dV/dT` of the Tait volume from the vapor pressure: it is
zero there, and has that pressure derivative. -/
theorem C87_integral (a : Tait) (T P : ℝ) (h1 : 0 < a.B + P) (h2 : 0 < a.B + a.Ps) :
    a.integral T a.Ps = 0 ∧ HasDerivAt (fun p => a.integral T p) (a.vol P - T * a.dvol P) P := by
  have h1' : 0 < P + a.B := by linarith
  constructor
  · unfold Tait.integral
    dsimp only
    have e : (a.Ps + a.B) * (1 / (a.B + a.Ps)) = 1 := by
      rw [mul_one_div, add_comm a.Ps, div_self h2.ne']
    rw [e, Real.log_one, add_comm a.Ps a.B]
    ring
  · unfold Tait.integral Tait.vol Tait.dvol
    dsimp only
    have i1 := hasDerivAt_id' P
    have hx1 := i1.add_const a.B
    have hl1 := hx1.log h1'.ne'
    have hl2 := (hx1.mul_const (1 / (a.B + a.Ps))).log (by positivity)
    have e0 : Real.log ((a.B + P) / (a.B + a.Ps)) = Real.log ((P + a.B) * (1 / (a.B + a.Ps))) := by
      rw [mul_one_div, add_comm P]
    rw [e0]
    refine HasDerivAt.congr_deriv (((((i1.fun_neg.mul_const _).fun_add
      ((i1.mul_const _).fun_mul hl2)).fun_add (hl1.const_mul _)).sub_const _).add_const _) ?_
    generalize Real.log ((P + a.B) * (1 / (a.B + a.Ps))) = L
    have h3 : a.B + P = P + a.B := add_comm _ _
    rw [h3]
    obtain ⟨x, hx⟩ : ∃ x, x = P + a.B := ⟨_, rfl⟩
    obtain ⟨y, hy⟩ : ∃ y, y = a.B + a.Ps := ⟨_, rfl⟩
    rw [← hx, ← hy]
    rw [← hx] at h1'
    rw [← hy] at h2
    have e1 : P = x - a.B := by linarith
    have e2 : a.Ps = y - a.B := by linarith
    rw [e1, e2]
    field_simp
    ring

example : ∃ (a : Tait) (P : ℝ), 0 < a.B + P ∧ 0 < a.B + a.Ps ∧ a.C ≠ 0 :=
  ⟨⟨1, 1, 1, 1, 1, 1, 1, 1⟩, 2, by norm_num, by norm_num, by norm_num⟩

end Verif.ExcessState
