import Mathlib.Topology.Order.IntermediateValue
import Mathlib.Data.Finset.Lattice.Fold
import Mathlib.Data.Fintype.Basic
import Mathlib.Data.Real.Basic
import Mathlib.Tactic

/-!
# C134: flashes of property packages at given enthalpy or entropy

`thermo/property_package.py`: `PropertyPackage.flash_caloric` (630-672), `_set_failure` (674-684), `flash_PH_zs_bounded` (689-758),
`flash_PS_zs_bounded` (761-827), `flash_TS_zs_bounded` (829-886).

A package is its enthalpy and entropy after a flash at temperature and pressure, at vapour fraction and pressure, and at vapour fraction and
temperature, for a fixed composition (the flashes themselves are C103, the enthalpy and entropy C104); the scratch package used for the
evaluations holds nothing a flash does not overwrite and is left out. `brenth` of `fluids.numerics` is a parameter with a contract: no sign
change over the bracket is reported as a `ValueError`, a tolerance on the value that cannot be met as an `UnconvergedError`, without such a
tolerance some point of the bracket is returned. Bounds given by the caller are the defaults.
-/

namespace Verif.CaloricFlash

open Finset

/-- The outcome of the bracketing solver. -/
inductive Root
  /-- a point -/
  | found (x : ℝ)
  /-- no sign change: `ValueError` -/
  | unbracketed
  /-- the tolerance cannot be met: `UnconvergedError` -/
  | unconverged

/-- A bracketing solver: function, ends, tolerance on the function. -/
abbrev Solver := (ℝ → ℝ) → ℝ → ℝ → Option ℝ → Root

/-- The contract of `brenth`. -/
structure Contract (solve : Solver) : Prop where
  /-- refuses exactly brackets without a sign change -/
  bracket : ∀ f a b tol, solve f a b tol = .unbracketed ↔ 0 < f a * f b
  /-- returns a point of the bracket within the tolerance -/
  inside : ∀ f a b tol x, a ≤ b → solve f a b tol = .found x → a ≤ x ∧ x ≤ b ∧ ∀ e, 0 ≤ e → tol = some e → |f x| ≤ e
  /-- of a continuous function it returns a root -/
  root : ∀ f a b tol x, a ≤ b → ContinuousOn f (Set.Icc a b) → solve f a b tol = .found x → f x = 0
  /-- only a tolerance and a function that is not continuous make it give up -/
  gives_up : ∀ f a b tol, a ≤ b → solve f a b tol = .unconverged → tol.isSome ∧ ¬ ContinuousOn f (Set.Icc a b)

/-- Properties of a package at the composition. -/
structure Pkg where
  /-- one component -/
  pure : Bool
  /-- enthalpy at temperature and pressure -/
  h : ℝ → ℝ → ℝ
  /-- entropy at temperature and pressure -/
  s : ℝ → ℝ → ℝ
  /-- enthalpy at vapour fraction and pressure -/
  hV : ℝ → ℝ → ℝ
  /-- entropy at vapour fraction and pressure -/
  sV : ℝ → ℝ → ℝ
  /-- entropy at vapour fraction and temperature -/
  sVT : ℝ → ℝ → ℝ
  /-- bounds of temperature -/
  Tlow : ℝ
  /-- bounds of temperature -/
  Thigh : ℝ
  /-- bounds of pressure at a temperature -/
  Plow : ℝ
  /-- bounds of pressure at a temperature -/
  Phigh : ℝ → ℝ

/-- Exceptions. -/
inductive Err
  /-- below what the bounds allow -/
  | low
  /-- above what the bounds allow -/
  | high
  /-- a name without value (`T_goal`) -/
  | unbound
  /-- the solver did not converge -/
  | unconverged
  /-- `kwargs.update(None)` -/
  | type
  /-- 'Flash inputs unsupported' -/
  | unsupported
  deriving DecidableEq

/-- What a bounded flash returns. -/
inductive Sol
  /-- `{'T': ..}` or `{'P': ..}` -/
  | state (x : ℝ)
  /-- `{'VF': ..}` -/
  | fraction (v : ℝ)
  /-- `None` -/
  | nothing

/-- What happens after a `ValueError` (740-758, 809-827). -/
noncomputable def outside (lo hi goal : ℝ) : Except Err Sol :=
  if goal < lo then .error .low else if goal > hi then .error .high else .ok .nothing

/-- The same for pressures (868-886), where entropy falls. -/
noncomputable def outsideP (lo hi goal : ℝ) : Except Err Sol :=
  if goal > lo then .error .low else if goal < hi then .error .high else .ok .nothing

/-- The search over vapour fractions (736-737, 803-804, 864-865) inside the same `try`. -/
noncomputable def byFraction (solve : Solver) (f : ℝ → ℝ) (out : Except Err Sol) : Except Err Sol :=
  match solve f 0 1 none with
  | .found v => .ok (.fraction v)
  | .unbracketed => out
  | .unconverged => .error .unconverged

/-- `flash_PH_zs_bounded` (689-758). -/
noncomputable def flashPH (solve : Solver) (d : Pkg) (P H : ℝ) : Except Err Sol :=
  let out := outside (d.h d.Tlow P) (d.h d.Thigh P) H
  match solve (fun T => d.h T P - H) d.Tlow d.Thigh (some (1 / 10 ^ 6)) with
  | .found t => .ok (.state t)
  | .unconverged => if d.pure then byFraction solve (fun v => d.hV v P - H) out else .error .unbound
  | .unbracketed => out

/-- `flash_PS_zs_bounded` (761-827). -/
noncomputable def flashPS (solve : Solver) (d : Pkg) (P S : ℝ) : Except Err Sol :=
  let out := outside (d.s d.Tlow P) (d.s d.Thigh P) S
  match solve (fun T => d.s T P - S) d.Tlow d.Thigh none with
  | .found t => if d.pure ∧ |d.s t P - S| > 1 / 10 ^ 3 then byFraction solve (fun v => d.sV v P - S) out else .ok (.state t)
  | .unconverged => .error .unconverged
  | .unbracketed => out

/-- `flash_TS_zs_bounded` (829-886). -/
noncomputable def flashTS (solve : Solver) (d : Pkg) (T S : ℝ) : Except Err Sol :=
  let out := outsideP (d.s T d.Plow) (d.s T (d.Phigh T)) S
  match solve (fun P => d.s T P - S) d.Plow (d.Phigh T) none with
  | .found p => if d.pure ∧ |d.s T p - S| > 1 / 10 ^ 3 then byFraction solve (fun v => d.sVT v T - S) out else .ok (.state p)
  | .unconverged => .error .unconverged
  | .unbracketed => out

/-- The arguments of `flash` that result. -/
structure Spec where
  /-- `T` -/
  T : Option ℝ := none
  /-- `P` -/
  P : Option ℝ := none
  /-- `VF` -/
  VF : Option ℝ := none

/-- `kwargs.update(...)` of a solution for the temperature at a pressure (639-644). -/
def atP (P : ℝ) : Except Err Sol → Except Err Spec
  | .ok (.state t) => .ok { T := some t, P := some P }
  | .ok (.fraction v) => .ok { P := some P, VF := some v }
  | .ok .nothing => .error .type
  | .error x => .error x

/-- `kwargs.update(...)` of a solution for the pressure at a temperature (636-638). -/
def atT (T : ℝ) : Except Err Sol → Except Err Spec
  | .ok (.state p) => .ok { T := some T, P := some p }
  | .ok (.fraction v) => .ok { T := some T, VF := some v }
  | .ok .nothing => .error .type
  | .error x => .error x

/-- The arguments given to `flash_caloric`. -/
structure Input where
  /-- `T` -/
  T : Option ℝ := none
  /-- `P` -/
  P : Option ℝ := none
  /-- `VF` -/
  VF : Option ℝ := none
  /-- `Hm` -/
  H : Option ℝ := none
  /-- `Sm` -/
  S : Option ℝ := none

/-- The choice of the flash (636-652). -/
noncomputable def choose (solve : Solver) (d : Pkg) (i : Input) : Except Err Spec :=
  match i.T, i.P, i.VF, i.H, i.S with
  | some T, _, _, _, some S => atT T (flashTS solve d T S)
  | none, some P, _, _, some S => atP P (flashPS solve d P S)
  | _, some P, _, some H, none => atP P (flashPH solve d P H)
  | some T, some P, VF, none, none => .ok { T := some T, P := some P, VF := VF }
  | some T, none, some v, _, none => .ok { T := some T, VF := some v }
  | none, some P, some v, none, none => .ok { P := some P, VF := some v }
  | _, _, _, _, _ => .error .unsupported

/-- Enthalpy and entropy of the package after `flash` (666-667; the pair is chosen in the order 597-602). -/
noncomputable def enthalpyAt (d : Pkg) (x : Spec) : Option ℝ :=
  match x.T, x.P, x.VF with
  | some T, some P, _ => some (d.h T P)
  | none, some P, some v => some (d.hV v P)
  | _, _, _ => none

/-- See `enthalpyAt`. -/
noncomputable def entropyAt (d : Pkg) (x : Spec) : Option ℝ :=
  match x.T, x.P, x.VF with
  | some T, some P, _ => some (d.s T P)
  | some T, none, some v => some (d.sVT v T)
  | none, some P, some v => some (d.sV v P)
  | _, _, _ => none

/-- The package object as far as `flash_caloric` changes it. -/
structure Object (Z : Type) where
  /-- `status`: `none` is `True` -/
  status : Option Err
  /-- the flash whose results it holds; `none`: all of them `None` (674-684) -/
  held : Option Spec
  /-- `zs` -/
  zs : Z

/-- `flash_caloric` (630-672): exceptions end in the status. -/
noncomputable def flashCaloric {Z : Type} (solve : Solver) (d : Pkg) (o : Object Z) (i : Input) (zs : Z) : Object Z :=
  match choose solve d i with
  | .ok x => ⟨none, some x, zs⟩
  | .error e => ⟨some e, none, o.zs⟩

/-- The bounds of temperature (694-704). -/
noncomputable def boundsT {n : ℕ} (Tm Tc : Fin (n + 1) → ℝ) : ℝ × ℝ :=
  (univ.inf' univ_nonempty Tm / 2, if univ.sup' univ_nonempty Tc < 100 then 4000 else univ.sup' univ_nonempty Tc * 8)

/-! ## Theorems -/

/-- A solver by choice, to show that the contract can be met. -/
noncomputable def anySolver : Solver := fun f a b tol => by
  classical
  exact if 0 < f a * f b then .unbracketed
    else if h : ∃ x, a ≤ x ∧ x ≤ b ∧ f x = 0 then .found h.choose
    else if tol.isSome then .unconverged else .found a

theorem anySolver_contract : Contract anySolver := by
  have ivt : ∀ (f : ℝ → ℝ) (a b : ℝ), a ≤ b → ContinuousOn f (Set.Icc a b) → ¬ 0 < f a * f b → ∃ x, a ≤ x ∧ x ≤ b ∧ f x = 0 := by
    intro f a b hab hc hs
    rcases le_total (f a) 0 with h1 | h1
    · rcases le_total 0 (f b) with h2 | h2
      · obtain ⟨x, hx, h0⟩ := intermediate_value_Icc hab hc ⟨h1, h2⟩
        exact ⟨x, hx.1, hx.2, h0⟩
      · rcases h1.lt_or_eq with h1 | h1
        · rcases h2.lt_or_eq with h2 | h2
          · exact absurd (mul_pos_of_neg_of_neg h1 h2) hs
          · exact ⟨b, hab, le_rfl, h2⟩
        · exact ⟨a, le_rfl, hab, h1⟩
    · rcases le_total (f b) 0 with h2 | h2
      · obtain ⟨x, hx, h0⟩ := intermediate_value_Icc' hab hc ⟨h2, h1⟩
        exact ⟨x, hx.1, hx.2, h0⟩
      · rcases h1.lt_or_eq with h1 | h1
        · rcases h2.lt_or_eq with h2 | h2
          · exact absurd (mul_pos h1 h2) hs
          · exact ⟨b, hab, le_rfl, h2.symm⟩
        · exact ⟨a, le_rfl, hab, h1.symm⟩
  refine ⟨?_, ?_, ?_, ?_⟩
  · intro f a b tol
    unfold anySolver
    split_ifs <;> simp_all
  · intro f a b tol x hab h
    unfold anySolver at h
    split_ifs at h with h1 h2 h3
    · injection h with h
      subst h
      have := h2.choose_spec
      exact ⟨this.1, this.2.1, fun e he _ => by rw [this.2.2]; simpa using he⟩
    · injection h with h
      subst h
      exact ⟨le_rfl, hab, fun e _ he => by simp [he] at h3⟩
  · intro f a b tol x hab hc h
    unfold anySolver at h
    split_ifs at h with h1 h2 h3
    · injection h with h
      subst h
      exact h2.choose_spec.2.2
    · exact absurd (ivt f a b hab hc h1) h2
  · intro f a b tol hab h
    unfold anySolver at h
    split_ifs at h with h1 h2 h3
    exact ⟨h3, fun hc => h2 (ivt f a b hab hc h1)⟩

/-- The default bounds of temperature are in order whenever melting points are positive and no higher than the critical temperatures. -/
theorem C134_bounds_order {n : ℕ} (Tm Tc : Fin (n + 1) → ℝ) (hm : ∀ i, 0 < Tm i) (h : ∀ i, Tm i ≤ Tc i) :
    0 < (boundsT Tm Tc).1 ∧ (∀ i, (boundsT Tm Tc).1 < Tm i) ∧ (∀ i, Tc i < (boundsT Tm Tc).2) := by
  have hpos : 0 < univ.inf' univ_nonempty Tm := by
    rw [Finset.lt_inf'_iff]
    exact fun i _ => hm i
  refine ⟨by unfold boundsT; dsimp only; linarith, fun i => ?_, fun i => ?_⟩
  · have := Finset.inf'_le Tm (Finset.mem_univ i)
    unfold boundsT
    dsimp only
    linarith
  · have h1 := Finset.le_sup' Tc (Finset.mem_univ i)
    have := hm i
    have := h i
    unfold boundsT
    dsimp only
    split_ifs <;> linarith

example : (boundsT (![100, 200] : Fin 2 → ℝ) ![500, 600]).1 < 100 :=
  (C134_bounds_order _ _ (by intro i; fin_cases i <;> norm_num) (by intro i; fin_cases i <;> norm_num)).2.1 0

/-- A package that is usable at a pressure: bounds in order, properties linear in the vapour fraction (or at least continuous). -/
structure Usable (d : Pkg) : Prop where
  bounds : d.Tlow ≤ d.Thigh
  pressures : ∀ T, d.Plow ≤ d.Phigh T
  hV : ∀ P, ContinuousOn (fun v => d.hV v P) (Set.Icc 0 1)
  sV : ∀ P, ContinuousOn (fun v => d.sV v P) (Set.Icc 0 1)
  sVT : ∀ T, ContinuousOn (fun v => d.sVT v T) (Set.Icc 0 1)

/-- A search over vapour fractions that succeeds is exact. -/
theorem fraction_exact {solve : Solver} (hs : Contract solve) {f : ℝ → ℝ} (hf : ContinuousOn f (Set.Icc 0 1)) {out : Except Err Sol}
    (ho : ∀ x, out = .ok x → x = .nothing) {x : Sol} (h : byFraction solve f out = .ok x) :
    x = .nothing ∨ ∃ v, x = .fraction v ∧ 0 ≤ v ∧ v ≤ 1 ∧ f v = 0 := by
  unfold byFraction at h
  split at h
  · rename_i v hv
    injection h with h
    obtain ⟨h1, h2, -⟩ := hs.inside f 0 1 none v zero_le_one hv
    exact Or.inr ⟨v, h.symm, h1, h2, hs.root f 0 1 none v zero_le_one hf hv⟩
  · exact Or.inl (ho x h)
  · cases h

theorem outside_nothing {lo hi g : ℝ} (x : Sol) (h : outside lo hi g = .ok x) : x = .nothing := by
  unfold outside at h
  split_ifs at h
  injection h with h
  exact h.symm

theorem outsideP_nothing {lo hi g : ℝ} (x : Sol) (h : outsideP lo hi g = .ok x) : x = .nothing := by
  unfold outsideP at h
  split_ifs at h
  injection h with h
  exact h.symm

/-- A flash at pressure and enthalpy that reports success holds a state at that pressure, within the bounds of temperature or of vapour
fraction, whose enthalpy is the one asked for to 1e-6 J/mol. -/
theorem C134_PH {Z : Type} {solve : Solver} (hs : Contract solve) {d : Pkg} (hd : Usable d) (o : Object Z) (zs : Z) (P H : ℝ)
    (h : (flashCaloric solve d o { P := some P, H := some H } zs).status = none) :
    ∃ x e, (flashCaloric solve d o { P := some P, H := some H } zs).held = some x ∧ x.P = some P ∧ enthalpyAt d x = some e ∧
      |e - H| ≤ 1 / 10 ^ 6 ∧ (∀ t, x.T = some t → d.Tlow ≤ t ∧ t ≤ d.Thigh) ∧ (∀ v, x.VF = some v → d.pure = true ∧ 0 ≤ v ∧ v ≤ 1) := by
  unfold flashCaloric at h ⊢
  simp only [choose] at h ⊢
  have key : ∀ y, flashPH solve d P H = .ok y → y = .nothing ∨ (∃ t, y = .state t ∧ d.Tlow ≤ t ∧ t ≤ d.Thigh ∧ |d.h t P - H| ≤ 1 / 10 ^ 6) ∨
      (d.pure = true ∧ ∃ v, y = .fraction v ∧ 0 ≤ v ∧ v ≤ 1 ∧ d.hV v P - H = 0) := by
    intro y hy
    unfold flashPH at hy
    dsimp only at hy
    split at hy
    · rename_i t ht
      injection hy with hy
      obtain ⟨h1, h2, h3⟩ := hs.inside _ _ _ _ t hd.bounds ht
      exact Or.inr (Or.inl ⟨t, hy.symm, h1, h2, h3 _ (by norm_num) rfl⟩)
    · split_ifs at hy with hp
      rcases fraction_exact hs ((hd.hV P).sub continuousOn_const) (fun x hx => outside_nothing x hx) hy with h0 | h0
      · exact Or.inl h0
      · exact Or.inr (Or.inr ⟨hp, h0⟩)
    · exact Or.inl (outside_nothing y hy)
  cases hf : flashPH solve d P H with
  | error e => simp [hf, atP] at h
  | ok y =>
    rcases key y hf with h0 | ⟨t, h0, h1, h2, h3⟩ | ⟨hp, v, h0, h1, h2, h3⟩
    · simp [hf, h0, atP] at h
    · subst h0
      refine ⟨{ T := some t, P := some P }, d.h t P, by simp [atP], rfl, rfl, h3, ?_, ?_⟩
      · intro t' ht
        simp only [Option.some.injEq] at ht
        subst ht
        exact ⟨h1, h2⟩
      · intro v hv
        cases hv
    · subst h0
      refine ⟨{ P := some P, VF := some v }, d.hV v P, by simp [atP], rfl, rfl, ?_, ?_, ?_⟩
      · rw [h3]; norm_num
      · intro t ht
        cases ht
      · intro v' hv
        simp only [Option.some.injEq] at hv
        subst hv
        exact ⟨hp, h1, h2⟩

/-- A pure liquid boiling at 400 K. -/
noncomputable def boiling (pure : Bool) : Pkg where
  pure := pure
  h := fun T _ => if T < 400 then T else T + 1000
  s := fun T _ => if T < 400 then T / 100 else T / 100 + 10
  hV := fun v _ => 400 + 1000 * v
  sV := fun v _ => 4 + 10 * v
  sVT := fun v T => T / 100 + 10 * v
  Tlow := 100
  Thigh := 4000
  Plow := 1 / 10 ^ 5
  Phigh := fun _ => 10 ^ 6

theorem boiling_usable (b : Bool) : Usable (boiling b) :=
  ⟨by norm_num [boiling], fun _ => by norm_num [boiling], fun _ => by unfold boiling; fun_prop, fun _ => by unfold boiling; fun_prop,
    fun _ => by unfold boiling; fun_prop⟩

/-- Every request between the ends of the bounds of temperature that lies in the two phase region or has a continuous enthalpy is answered: no
exception, for a pure component even when the enthalpy jumps. -/
theorem C134_PH_answered {Z : Type} {solve : Solver} (hs : Contract solve) {d : Pkg} (hd : Usable d) (o : Object Z) (zs : Z) (P H : ℝ)
    (hlo : d.h d.Tlow P ≤ H) (hhi : H ≤ d.h d.Thigh P)
    (hc : ContinuousOn (fun T => d.h T P) (Set.Icc d.Tlow d.Thigh) ∨ (d.pure = true ∧ d.hV 0 P ≤ H ∧ H ≤ d.hV 1 P)) :
    (flashCaloric solve d o { P := some P, H := some H } zs).status = none := by
  have hne : ¬ 0 < (d.h d.Tlow P - H) * (d.h d.Thigh P - H) := not_lt.2 (mul_nonpos_of_nonpos_of_nonneg (by linarith) (by linarith))
  unfold flashCaloric
  simp only [choose, flashPH]
  cases h1 : solve (fun T => d.h T P - H) d.Tlow d.Thigh (some (1 / 10 ^ 6)) with
  | found t => simp [atP]
  | unbracketed => exact absurd ((hs.bracket _ _ _ _).1 h1) hne
  | unconverged =>
    rcases hc with hc | ⟨hp, hc0, hc1⟩
    · exact absurd (hc.sub continuousOn_const) (hs.gives_up _ _ _ _ hd.bounds h1).2
    · simp only [hp, if_true, byFraction]
      cases h2 : solve (fun v => d.hV v P - H) 0 1 none with
      | found v => simp [atP]
      | unbracketed => exact absurd ((hs.bracket _ _ _ _).1 h2) (not_lt.2 (mul_nonpos_of_nonpos_of_nonneg (by linarith) (by linarith)))
      | unconverged => exact absurd (hs.gives_up _ _ _ _ zero_le_one h2).1 (by simp)

/-- The two together: the boiling liquid at an enthalpy inside the jump ends at the vapour fraction with that enthalpy. -/
example : ∃ x e, (flashCaloric anySolver (boiling true) (⟨none, none, 0⟩ : Object ℕ) { P := some 1, H := some 900 } 1).held = some x ∧
    enthalpyAt (boiling true) x = some e ∧ |e - 900| ≤ 1 / 10 ^ 6 := by
  have h := C134_PH_answered anySolver_contract (boiling_usable true) (⟨none, none, 0⟩ : Object ℕ) 1 1 900 (by norm_num [boiling])
    (by norm_num [boiling]) (Or.inr ⟨rfl, by norm_num [boiling], by norm_num [boiling]⟩)
  obtain ⟨x, e, h1, -, h2, h3, -⟩ := C134_PH anySolver_contract (boiling_usable true) _ 1 1 900 h
  exact ⟨x, e, h1, h2, h3⟩

/-- For a mixture whose enthalpy jumps over the request the solver gives up and the code reads a name it never set. -/
theorem C134_PH_mixture_fails {Z : Type} {solve : Solver} (hs : Contract solve) (o : Object Z) (zs : Z) :
    (flashCaloric solve (boiling false) o { P := some 1, H := some 900 } zs).status = some .unbound := by
  have hno : ∀ t, ¬ |(boiling false).h t 1 - 900| ≤ 1 / 10 ^ 6 := by
    intro t
    simp only [boiling]
    split_ifs with h
    · rw [not_le, abs_of_neg (by linarith)]; norm_num; linarith
    · rw [not_le, abs_of_pos (by linarith)]; norm_num; linarith
  unfold flashCaloric
  simp only [choose, flashPH]
  cases h1 : solve (fun T => (boiling false).h T 1 - 900) (boiling false).Tlow (boiling false).Thigh (some (1 / 10 ^ 6)) with
  | found t => exact absurd ((hs.inside _ _ _ _ t (boiling_usable false).bounds h1).2.2 _ (by norm_num) rfl) (hno t)
  | unbracketed =>
    have := (hs.bracket _ _ _ _).1 h1
    norm_num [boiling] at this
  | unconverged => simp [boiling, atP]

/-- Enthalpies beyond the bounds are refused with the message that fits, nothing of the old results is kept. -/
theorem C134_PH_bounds {Z : Type} {solve : Solver} (hs : Contract solve) (d : Pkg) (o : Object Z) (zs : Z) (P H : ℝ)
    (hm : d.h d.Tlow P ≤ d.h d.Thigh P) :
    (H < d.h d.Tlow P → flashCaloric solve d o { P := some P, H := some H } zs = ⟨some .low, none, o.zs⟩) ∧
    (d.h d.Thigh P < H → flashCaloric solve d o { P := some P, H := some H } zs = ⟨some .high, none, o.zs⟩) := by
  constructor
  · intro h
    have h1 := (hs.bracket (fun T => d.h T P - H) d.Tlow d.Thigh (some (1 / 10 ^ 6))).2 (mul_pos (by linarith) (by linarith))
    simp only [flashCaloric, choose, flashPH, h1, outside, if_pos h, atP]
  · intro h
    have h1 := (hs.bracket (fun T => d.h T P - H) d.Tlow d.Thigh (some (1 / 10 ^ 6))).2
      (mul_pos_of_neg_of_neg (by linarith) (by linarith))
    have h2 : ¬ H < d.h d.Tlow P := by linarith
    simp only [flashCaloric, choose, flashPH, h1, outside, if_neg h2, gt_iff_lt, if_pos h, atP]

example : (flashCaloric anySolver (boiling true) (⟨none, none, 0⟩ : Object ℕ) { P := some 1, H := some 10 } 1).status = some .low := by
  rw [(C134_PH_bounds anySolver_contract (boiling true) _ 1 1 10 (by norm_num [boiling])).1 (by norm_num [boiling])]

/-- What the entropy flashes return when they return something. -/
theorem entropy_solution {solve : Solver} (hs : Contract solve) {f g : ℝ → ℝ} {a b : ℝ} (hab : a ≤ b) {out : Except Err Sol}
    (ho : ∀ x, out = .ok x → x = .nothing) (hg : ContinuousOn g (Set.Icc 0 1)) (pure : Bool) {y : Sol}
    (h : (match solve f a b none with
      | .found t => if pure ∧ |f t| > 1 / 10 ^ 3 then byFraction solve g out else .ok (.state t)
      | .unconverged => .error .unconverged
      | .unbracketed => out) = .ok y) :
    y = .nothing ∨ (∃ t, y = .state t ∧ a ≤ t ∧ t ≤ b ∧ (pure = true → |f t| ≤ 1 / 10 ^ 3) ∧ (ContinuousOn f (Set.Icc a b) → f t = 0)) ∨
      (pure = true ∧ ∃ v, y = .fraction v ∧ 0 ≤ v ∧ v ≤ 1 ∧ g v = 0) := by
  split at h
  · rename_i t ht
    split_ifs at h with hp
    · rcases fraction_exact hs hg ho h with h0 | h0
      · exact Or.inl h0
      · exact Or.inr (Or.inr ⟨hp.1, h0⟩)
    · injection h with h
      obtain ⟨h1, h2, -⟩ := hs.inside _ _ _ _ t hab ht
      exact Or.inr (Or.inl ⟨t, h.symm, h1, h2, fun hpure => not_lt.1 fun hl => hp ⟨hpure, hl⟩, fun hc => hs.root _ _ _ _ t hab hc ht⟩)
  · cases h
  · exact Or.inl (ho y h)

/-- A flash at pressure and entropy that reports success, of a pure component or of a mixture whose entropy is continuous in temperature, holds
a state at that pressure whose entropy is the one asked for to 1e-3 J/mol/K. -/
theorem C134_PS_partial {Z : Type} {solve : Solver} (hs : Contract solve) {d : Pkg} (hd : Usable d) (o : Object Z) (zs : Z) (P S : ℝ)
    (hc : d.pure = true ∨ ContinuousOn (fun T => d.s T P) (Set.Icc d.Tlow d.Thigh))
    (h : (flashCaloric solve d o { P := some P, S := some S } zs).status = none) :
    ∃ x e, (flashCaloric solve d o { P := some P, S := some S } zs).held = some x ∧ x.P = some P ∧ entropyAt d x = some e ∧
      |e - S| ≤ 1 / 10 ^ 3 ∧ (∀ t, x.T = some t → d.Tlow ≤ t ∧ t ≤ d.Thigh) ∧ (∀ v, x.VF = some v → d.pure = true ∧ 0 ≤ v ∧ v ≤ 1) := by
  unfold flashCaloric at h ⊢
  simp only [choose] at h ⊢
  cases hf : flashPS solve d P S with
  | error e => simp [hf, atP] at h
  | ok y =>
    have hf' := hf
    unfold flashPS at hf'
    rcases entropy_solution hs (f := fun T => d.s T P - S) (g := fun v => d.sV v P - S) hd.bounds (fun x hx => outside_nothing x hx)
      ((hd.sV P).sub continuousOn_const) d.pure hf' with h0 | ⟨t, h0, h1, h2, h3, h4⟩ | ⟨hp, v, h0, h1, h2, h3⟩
    · simp [hf, h0, atP] at h
    · subst h0
      refine ⟨{ T := some t, P := some P }, d.s t P, by simp [atP], rfl, rfl, ?_, ?_, ?_⟩
      · rcases hc with hc | hc
        · exact h3 hc
        · rw [h4 (hc.sub continuousOn_const)]; norm_num
      · intro t' ht
        simp only [Option.some.injEq] at ht
        subst ht
        exact ⟨h1, h2⟩
      · intro v hv
        cases hv
    · subst h0
      refine ⟨{ P := some P, VF := some v }, d.sV v P, by simp [atP], rfl, rfl, ?_, ?_, ?_⟩
      · rw [h3]; norm_num
      · intro t ht
        cases ht
      · intro v' hv
        simp only [Option.some.injEq] at hv
        subst hv
        exact ⟨hp, h1, h2⟩

/-- For a mixture nothing is checked: when the entropy jumps over the request the flash reports success with another entropy. -/
theorem C134_PS_fails {Z : Type} {solve : Solver} (hs : Contract solve) (o : Object Z) (zs : Z) :
    (flashCaloric solve (boiling false) o { P := some 1, S := some 9 } zs).status = none ∧
    ∃ x e, (flashCaloric solve (boiling false) o { P := some 1, S := some 9 } zs).held = some x ∧ entropyAt (boiling false) x = some e ∧
      5 ≤ |e - 9| := by
  have hno : ∀ t, 5 ≤ |(boiling false).s t 1 - 9| := by
    intro t
    simp only [boiling]
    split_ifs with h
    · rw [abs_of_neg (by linarith)]; linarith
    · rw [abs_of_pos (by linarith)]; linarith
  unfold flashCaloric
  simp only [choose, flashPS]
  cases h1 : solve (fun T => (boiling false).s T 1 - 9) (boiling false).Tlow (boiling false).Thigh none with
  | found t =>
    have hp : ¬ ((boiling false).pure = true ∧ |(boiling false).s t 1 - 9| > 1 / 10 ^ 3) := by simp [boiling]
    simp only [if_neg hp, atP]
    exact ⟨trivial, { T := some t, P := some 1 }, _, rfl, rfl, hno t⟩
  | unbracketed =>
    have := (hs.bracket _ _ _ _).1 h1
    norm_num [boiling] at this
  | unconverged => exact absurd (hs.gives_up _ _ _ _ (boiling_usable false).bounds h1).1 (by simp)

/-- Every entropy between the ends that lies in the two phase region or is continuous is answered. -/
theorem C134_PS_answered {Z : Type} {solve : Solver} (hs : Contract solve) {d : Pkg} (hd : Usable d) (o : Object Z) (zs : Z) (P S : ℝ)
    (hlo : d.s d.Tlow P ≤ S) (hhi : S ≤ d.s d.Thigh P)
    (hc : ContinuousOn (fun T => d.s T P) (Set.Icc d.Tlow d.Thigh) ∨ (d.sV 0 P ≤ S ∧ S ≤ d.sV 1 P)) :
    (flashCaloric solve d o { P := some P, S := some S } zs).status = none := by
  have hne : ¬ 0 < (d.s d.Tlow P - S) * (d.s d.Thigh P - S) := not_lt.2 (mul_nonpos_of_nonpos_of_nonneg (by linarith) (by linarith))
  unfold flashCaloric
  simp only [choose, flashPS]
  cases h1 : solve (fun T => d.s T P - S) d.Tlow d.Thigh none with
  | unbracketed => exact absurd ((hs.bracket _ _ _ _).1 h1) hne
  | unconverged => exact absurd (hs.gives_up _ _ _ _ hd.bounds h1).1 (by simp)
  | found t =>
    dsimp only
    split_ifs with hp
    · rcases hc with hc | ⟨hc0, hc1⟩
      · have : d.s t P - S = 0 := hs.root _ _ _ _ t hd.bounds (hc.sub continuousOn_const) h1
        rw [this] at hp
        norm_num at hp
      · simp only [byFraction]
        cases h2 : solve (fun v => d.sV v P - S) 0 1 none with
        | found v => simp [atP]
        | unbracketed => exact absurd ((hs.bracket _ _ _ _).1 h2) (not_lt.2 (mul_nonpos_of_nonpos_of_nonneg (by linarith) (by linarith)))
        | unconverged => exact absurd (hs.gives_up _ _ _ _ zero_le_one h2).1 (by simp)
    · simp [atP]

example : ∃ x e, (flashCaloric anySolver (boiling true) (⟨none, none, 0⟩ : Object ℕ) { P := some 1, S := some 9 } 1).held = some x ∧
    entropyAt (boiling true) x = some e ∧ |e - 9| ≤ 1 / 10 ^ 3 := by
  have h := C134_PS_answered anySolver_contract (boiling_usable true) (⟨none, none, 0⟩ : Object ℕ) 1 1 9 (by norm_num [boiling])
    (by norm_num [boiling]) (Or.inr ⟨by norm_num [boiling], by norm_num [boiling]⟩)
  obtain ⟨x, e, h1, -, h2, h3, -⟩ := C134_PS_partial anySolver_contract (boiling_usable true) _ 1 1 9 (Or.inl rfl) h
  exact ⟨x, e, h1, h2, h3⟩

/-- Entropies beyond the bounds of temperature are refused with the message that fits. -/
theorem C134_PS_bounds {Z : Type} {solve : Solver} (hs : Contract solve) (d : Pkg) (o : Object Z) (zs : Z) (P S : ℝ)
    (hm : d.s d.Tlow P ≤ d.s d.Thigh P) :
    (S < d.s d.Tlow P → flashCaloric solve d o { P := some P, S := some S } zs = ⟨some .low, none, o.zs⟩) ∧
    (d.s d.Thigh P < S → flashCaloric solve d o { P := some P, S := some S } zs = ⟨some .high, none, o.zs⟩) := by
  constructor
  · intro h
    have h1 := (hs.bracket (fun T => d.s T P - S) d.Tlow d.Thigh none).2 (mul_pos (by linarith) (by linarith))
    simp [flashCaloric, choose, flashPS, h1, outside, h, atP]
  · intro h
    have h1 := (hs.bracket (fun T => d.s T P - S) d.Tlow d.Thigh none).2 (mul_pos_of_neg_of_neg (by linarith) (by linarith))
    have h2 : ¬ S < d.s d.Tlow P := by linarith
    simp [flashCaloric, choose, flashPS, h1, outside, h, h2, atP]

example : (flashCaloric anySolver (boiling true) (⟨none, none, 0⟩ : Object ℕ) { P := some 1, S := some 60 } 1).status = some .high := by
  rw [(C134_PS_bounds anySolver_contract (boiling true) _ 1 1 60 (by norm_num [boiling])).2 (by norm_num [boiling])]

/-- A flash at temperature and entropy that reports success, of a pure component or of a mixture whose entropy is continuous in pressure, holds
a state at that temperature whose entropy is the one asked for to 1e-3 J/mol/K. -/
theorem C134_TS_partial {Z : Type} {solve : Solver} (hs : Contract solve) {d : Pkg} (hd : Usable d) (o : Object Z) (zs : Z) (T S : ℝ)
    (hc : d.pure = true ∨ ContinuousOn (fun P => d.s T P) (Set.Icc d.Plow (d.Phigh T)))
    (h : (flashCaloric solve d o { T := some T, S := some S } zs).status = none) :
    ∃ x e, (flashCaloric solve d o { T := some T, S := some S } zs).held = some x ∧ x.T = some T ∧ entropyAt d x = some e ∧
      |e - S| ≤ 1 / 10 ^ 3 ∧ (∀ p, x.P = some p → d.Plow ≤ p ∧ p ≤ d.Phigh T) ∧ (∀ v, x.VF = some v → d.pure = true ∧ 0 ≤ v ∧ v ≤ 1) := by
  unfold flashCaloric at h ⊢
  simp only [choose] at h ⊢
  cases hf : flashTS solve d T S with
  | error e => simp [hf, atT] at h
  | ok y =>
    have hf' := hf
    unfold flashTS at hf'
    rcases entropy_solution hs (f := fun P => d.s T P - S) (g := fun v => d.sVT v T - S) (hd.pressures T) (fun x hx => outsideP_nothing x hx)
      ((hd.sVT T).sub continuousOn_const) d.pure hf' with h0 | ⟨t, h0, h1, h2, h3, h4⟩ | ⟨hp, v, h0, h1, h2, h3⟩
    · simp [hf, h0, atT] at h
    · subst h0
      refine ⟨{ T := some T, P := some t }, d.s T t, by simp [atT], rfl, rfl, ?_, ?_, ?_⟩
      · rcases hc with hc | hc
        · exact h3 hc
        · rw [h4 (hc.sub continuousOn_const)]; norm_num
      · intro t' ht
        simp only [Option.some.injEq] at ht
        subst ht
        exact ⟨h1, h2⟩
      · intro v hv
        cases hv
    · subst h0
      refine ⟨{ T := some T, VF := some v }, d.sVT v T, by simp [atT], rfl, rfl, ?_, ?_, ?_⟩
      · rw [h3]; norm_num
      · intro t ht
        cases ht
      · intro v' hv
        simp only [Option.some.injEq] at hv
        subst hv
        exact ⟨hp, h1, h2⟩

/-- Entropies beyond the bounds of pressure are refused with the message that fits (entropy falls with pressure). -/
theorem C134_TS_bounds {Z : Type} {solve : Solver} (hs : Contract solve) (d : Pkg) (o : Object Z) (zs : Z) (T S : ℝ)
    (hm : d.s T (d.Phigh T) ≤ d.s T d.Plow) :
    (d.s T d.Plow < S → flashCaloric solve d o { T := some T, S := some S } zs = ⟨some .low, none, o.zs⟩) ∧
    (S < d.s T (d.Phigh T) → flashCaloric solve d o { T := some T, S := some S } zs = ⟨some .high, none, o.zs⟩) := by
  constructor
  · intro h
    have h1 := (hs.bracket (fun P => d.s T P - S) d.Plow (d.Phigh T) none).2 (mul_pos_of_neg_of_neg (by linarith) (by linarith))
    simp [flashCaloric, choose, flashTS, h1, outsideP, h, atT]
  · intro h
    have h1 := (hs.bracket (fun P => d.s T P - S) d.Plow (d.Phigh T) none).2 (mul_pos (by linarith) (by linarith))
    have h2 : ¬ d.s T d.Plow < S := by linarith
    simp [flashCaloric, choose, flashTS, h1, outsideP, h, h2, atT]

/-- A gas condensing at 1000 Pa. -/
noncomputable def condensing (pure : Bool) : Pkg where
  pure := pure
  h := fun T _ => T
  s := fun _ P => if P < 1000 then 20 - P / 1000 else 5
  hV := fun _ _ => 0
  sV := fun _ _ => 0
  sVT := fun v _ => 5 + 14 * v
  Tlow := 100
  Thigh := 4000
  Plow := 1 / 10 ^ 5
  Phigh := fun _ => 10 ^ 6

theorem condensing_usable (b : Bool) : Usable (condensing b) :=
  ⟨by norm_num [condensing], fun _ => by norm_num [condensing], fun _ => by unfold condensing; fun_prop,
    fun _ => by unfold condensing; fun_prop, fun _ => by unfold condensing; fun_prop⟩

/-- Every entropy between the ends that lies in the two phase region or is continuous is answered. -/
theorem C134_TS_answered {Z : Type} {solve : Solver} (hs : Contract solve) {d : Pkg} (hd : Usable d) (o : Object Z) (zs : Z) (T S : ℝ)
    (hlo : d.s T (d.Phigh T) ≤ S) (hhi : S ≤ d.s T d.Plow)
    (hc : ContinuousOn (fun P => d.s T P) (Set.Icc d.Plow (d.Phigh T)) ∨ (d.sVT 0 T ≤ S ∧ S ≤ d.sVT 1 T)) :
    (flashCaloric solve d o { T := some T, S := some S } zs).status = none := by
  have hne : ¬ 0 < (d.s T d.Plow - S) * (d.s T (d.Phigh T) - S) := not_lt.2 (mul_nonpos_of_nonneg_of_nonpos (by linarith) (by linarith))
  unfold flashCaloric
  simp only [choose, flashTS]
  cases h1 : solve (fun P => d.s T P - S) d.Plow (d.Phigh T) none with
  | unbracketed => exact absurd ((hs.bracket _ _ _ _).1 h1) hne
  | unconverged => exact absurd (hs.gives_up _ _ _ _ (hd.pressures T) h1).1 (by simp)
  | found t =>
    dsimp only
    split_ifs with hp
    · rcases hc with hc | ⟨hc0, hc1⟩
      · have : d.s T t - S = 0 := hs.root _ _ _ _ t (hd.pressures T) (hc.sub continuousOn_const) h1
        rw [this] at hp
        norm_num at hp
      · simp only [byFraction]
        cases h2 : solve (fun v => d.sVT v T - S) 0 1 none with
        | found v => simp [atT]
        | unbracketed => exact absurd ((hs.bracket _ _ _ _).1 h2) (not_lt.2 (mul_nonpos_of_nonpos_of_nonneg (by linarith) (by linarith)))
        | unconverged => exact absurd (hs.gives_up _ _ _ _ zero_le_one h2).1 (by simp)
    · simp [atT]

example : ∃ x e, (flashCaloric anySolver (condensing true) (⟨none, none, 0⟩ : Object ℕ) { T := some 300, S := some 12 } 1).held = some x ∧
    entropyAt (condensing true) x = some e ∧ |e - 12| ≤ 1 / 10 ^ 3 := by
  have h := C134_TS_answered anySolver_contract (condensing_usable true) (⟨none, none, 0⟩ : Object ℕ) 1 300 12 (by norm_num [condensing])
    (by norm_num [condensing]) (Or.inr ⟨by norm_num [condensing], by norm_num [condensing]⟩)
  obtain ⟨x, e, h1, -, h2, h3, -⟩ := C134_TS_partial anySolver_contract (condensing_usable true) _ 1 300 12 (Or.inl rfl) h
  exact ⟨x, e, h1, h2, h3⟩

example : (flashCaloric anySolver (condensing true) (⟨none, none, 0⟩ : Object ℕ) { T := some 300, S := some 4 } 1).status = some .high := by
  rw [(C134_TS_bounds anySolver_contract (condensing true) _ 1 300 4 (by norm_num [condensing])).2 (by norm_num [condensing])]

/-- For a mixture the flash at temperature and entropy too reports success with another entropy where the entropy jumps. -/
theorem C134_TS_fails {Z : Type} {solve : Solver} (hs : Contract solve) (o : Object Z) (zs : Z) :
    (flashCaloric solve (condensing false) o { T := some 300, S := some 12 } zs).status = none ∧
    ∃ x e, (flashCaloric solve (condensing false) o { T := some 300, S := some 12 } zs).held = some x ∧
      entropyAt (condensing false) x = some e ∧ 7 ≤ |e - 12| := by
  have hno : ∀ p, 7 ≤ |(condensing false).s 300 p - 12| := by
    intro p
    simp only [condensing]
    split_ifs with h
    · rw [abs_of_pos (by linarith)]; linarith
    · norm_num
  unfold flashCaloric
  simp only [choose, flashTS]
  cases h1 : solve (fun P => (condensing false).s 300 P - 12) (condensing false).Plow ((condensing false).Phigh 300) none with
  | found p =>
    have hp : ¬ ((condensing false).pure = true ∧ |(condensing false).s 300 p - 12| > 1 / 10 ^ 3) := by simp [condensing]
    simp only [if_neg hp, atT]
    exact ⟨trivial, { T := some 300, P := some p }, _, rfl, rfl, hno p⟩
  | unbracketed =>
    have := (hs.bracket _ _ _ _).1 h1
    norm_num [condensing] at this
  | unconverged => exact absurd (hs.gives_up _ _ _ _ ((condensing_usable false).pressures 300) h1).1 (by simp)

/-- Temperature with entropy goes first, then pressure with entropy, then pressure with enthalpy; what else was given is not looked at. -/
theorem C134_priority (solve : Solver) (d : Pkg) (T P VF H : Option ℝ) (t p h s : ℝ) :
    choose solve d ⟨some t, P, VF, H, some s⟩ = choose solve d { T := some t, S := some s } ∧
    choose solve d ⟨none, some p, VF, H, some s⟩ = choose solve d { P := some p, S := some s } ∧
    choose solve d ⟨T, some p, VF, some h, none⟩ = choose solve d { P := some p, H := some h } := by
  refine ⟨rfl, rfl, ?_⟩
  cases T <;> rfl

/-- So a request with one input too many is not refused: the state reported need not have the pressure that was given. -/
theorem C134_overspecified_fails {Z : Type} {solve : Solver} (hs : Contract solve) (o : Object Z) (zs : Z) :
    ∃ d x, (flashCaloric solve d o { T := some 300, P := some 500, S := some 12 } zs).status = none ∧
      (flashCaloric solve d o { T := some 300, P := some 500, S := some 12 } zs).held = some x ∧ x.P ≠ some 500 := by
  have h := C134_TS_answered hs (condensing_usable true) o zs 300 12 (by norm_num [condensing]) (by norm_num [condensing])
    (Or.inr ⟨by norm_num [condensing], by norm_num [condensing]⟩)
  obtain ⟨x, e, h1, h2, h3, h4, -⟩ := C134_TS_partial hs (condensing_usable true) o zs 300 12 (Or.inl rfl) h
  have hsame : flashCaloric solve (condensing true) o { T := some 300, P := some 500, S := some 12 } zs =
      flashCaloric solve (condensing true) o { T := some 300, S := some 12 } zs := rfl
  refine ⟨condensing true, x, by rw [hsame]; exact h, by rw [hsame]; exact h1, ?_⟩
  intro hx
  simp only [entropyAt, h2, hx, Option.some.injEq] at h3
  rw [← h3] at h4
  norm_num [condensing] at h4

/-- The inputs refused as unsupported are exactly those without temperature or pressure with entropy, pressure with enthalpy, or two of
temperature, pressure and vapour fraction. -/
theorem C134_unsupported {Z : Type} (solve : Solver) (d : Pkg) (hTS : ∀ T S, atT T (flashTS solve d T S) ≠ .error .unsupported)
    (hPS : ∀ P S, atP P (flashPS solve d P S) ≠ .error .unsupported) (hPH : ∀ P H, atP P (flashPH solve d P H) ≠ .error .unsupported)
    (o : Object Z) (zs : Z) (i : Input) :
    (flashCaloric solve d o i zs).status = some .unsupported ↔
      ¬ ((i.T.isSome ∧ i.S.isSome) ∨ (i.P.isSome ∧ i.S.isSome) ∨ (i.P.isSome ∧ i.H.isSome) ∨ (i.T.isSome ∧ i.P.isSome) ∨
        (i.T.isSome ∧ i.VF.isSome) ∨ (i.P.isSome ∧ i.VF.isSome)) := by
  have hst : ∀ r : Except Err Spec, r ≠ .error .unsupported →
      (match r with
        | .ok x => (⟨none, some x, zs⟩ : Object Z)
        | .error e => ⟨some e, none, o.zs⟩).status ≠ some .unsupported := by
    intro r hr
    cases r with
    | ok x => simp
    | error e => intro h; simp only [Option.some.injEq] at h; exact hr (by rw [h])
  obtain ⟨T, P, VF, H, S⟩ := i
  unfold flashCaloric
  cases T <;> cases P <;> cases VF <;> cases H <;> cases S <;> simp only [choose] <;>
    first
      | simp; done
      | (refine iff_of_false (hst _ (hTS _ _)) ?_; simp; done)
      | (refine iff_of_false (hst _ (hPS _ _)) ?_; simp; done)
      | (refine iff_of_false (hst _ (hPH _ _)) ?_; simp; done)

/-- The searches never end in that error, so the condition of `C134_unsupported` holds of every package and solver. -/
theorem C134_searches (solve : Solver) (d : Pkg) :
    (∀ T S, atT T (flashTS solve d T S) ≠ .error .unsupported) ∧ (∀ P S, atP P (flashPS solve d P S) ≠ .error .unsupported) ∧
    (∀ P H, atP P (flashPH solve d P H) ≠ .error .unsupported) := by
  have ho : ∀ lo hi g x, outside lo hi g = .error x → x ≠ .unsupported := by
    intro lo hi g x h
    unfold outside at h
    split_ifs at h <;> · injection h with h; subst h; simp
  have hp : ∀ lo hi g x, outsideP lo hi g = .error x → x ≠ .unsupported := by
    intro lo hi g x h
    unfold outsideP at h
    split_ifs at h <;> · injection h with h; subst h; simp
  have hb : ∀ f out x, (∀ y, out = .error y → y ≠ .unsupported) → byFraction solve f out = .error x → x ≠ .unsupported := by
    intro f out x hout h
    unfold byFraction at h
    split at h
    · cases h
    · exact hout x h
    · injection h with h; subst h; simp
  have hT : ∀ T r, (∀ y, r = .error y → y ≠ .unsupported) → atT T r ≠ .error .unsupported := by
    intro T r hr h
    rcases r with y | (x | x | _)
    · simp only [atT, Except.error.injEq] at h; exact hr y rfl h
    all_goals simp [atT] at h
  have hP : ∀ P r, (∀ y, r = .error y → y ≠ .unsupported) → atP P r ≠ .error .unsupported := by
    intro P r hr h
    rcases r with y | (x | x | _)
    · simp only [atP, Except.error.injEq] at h; exact hr y rfl h
    all_goals simp [atP] at h
  refine ⟨fun T S => hT _ _ fun y hy => ?_, fun P S => hP _ _ fun y hy => ?_, fun P H => hP _ _ fun y hy => ?_⟩
  · unfold flashTS at hy
    dsimp only at hy
    split at hy
    · split_ifs at hy
      exact hb _ _ _ (hp _ _ _) hy
    · injection hy with hy; subst hy; simp
    · exact hp _ _ _ _ hy
  · unfold flashPS at hy
    dsimp only at hy
    split at hy
    · split_ifs at hy
      exact hb _ _ _ (ho _ _ _) hy
    · injection hy with hy; subst hy; simp
    · exact ho _ _ _ _ hy
  · unfold flashPH at hy
    dsimp only at hy
    split at hy
    · cases hy
    · split_ifs at hy
      · exact hb _ _ _ (ho _ _ _) hy
      · injection hy with hy; subst hy; simp
    · exact ho _ _ _ _ hy

example : (flashCaloric anySolver (boiling true) (⟨none, none, 0⟩ : Object ℕ) { T := some 300, H := some 1 } 1).status = some .unsupported :=
  (C134_unsupported anySolver (boiling true) (C134_searches _ _).1 (C134_searches _ _).2.1 (C134_searches _ _).2.2 _ _ _).2 (by simp)

/-- An ordinary pair of temperature, pressure and vapour fraction is handed on as it is. -/
theorem C134_pairs {Z : Type} (solve : Solver) (d : Pkg) (o : Object Z) (zs : Z) (T P v : ℝ) (VF H : Option ℝ) :
    flashCaloric solve d o ⟨some T, some P, VF, none, none⟩ zs = ⟨none, some ⟨some T, some P, VF⟩, zs⟩ ∧
    flashCaloric solve d o ⟨none, some P, some v, none, none⟩ zs = ⟨none, some ⟨none, some P, some v⟩, zs⟩ ∧
    flashCaloric solve d o ⟨some T, none, some v, H, none⟩ zs = ⟨none, some ⟨some T, none, some v⟩, zs⟩ := by
  refine ⟨rfl, rfl, ?_⟩
  cases H <;> rfl

/-- After a failure the status is the exception and no result of an earlier flash is left. -/
theorem C134_failure {Z : Type} (solve : Solver) (d : Pkg) (o : Object Z) (zs : Z) (i : Input) :
    let r := flashCaloric solve d o i zs
    (r.status = none → r.held.isSome = true ∧ r.zs = zs) ∧ (r.status ≠ none → r.held = none) := by
  unfold flashCaloric
  cases choose solve d i <;> simp

/-- The composition is: the object still shows the one of the flash before, not the one that failed. -/
theorem C134_composition_fails {Z : Type} (solve : Solver) (d : Pkg) (o : Object Z) (zs : Z) (hz : o.zs ≠ zs) (T H : ℝ) :
    (flashCaloric solve d o { T := some T, H := some H } zs).status = some .unsupported ∧
    (flashCaloric solve d o { T := some T, H := some H } zs).zs ≠ zs :=
  ⟨rfl, hz⟩

example : (flashCaloric anySolver (boiling true) (⟨none, none, 0⟩ : Object ℕ) { T := some 300, H := some 1 } 1).zs ≠ 1 :=
  (C134_composition_fails anySolver (boiling true) _ 1 (by decide) 300 1).2

/-- A bounded search returns `None`, and the caller a `TypeError`, only when the search over vapour fractions of a pure component finds no sign
change; a request outside the bounds never does this. -/
theorem C134_type_error {Z : Type} {solve : Solver} (hs : Contract solve) (d : Pkg) (o : Object Z) (zs : Z) (P H : ℝ)
    (h : (flashCaloric solve d o { P := some P, H := some H } zs).status = some .type) :
    d.pure = true ∧ 0 < (d.hV 0 P - H) * (d.hV 1 P - H) := by
  unfold flashCaloric at h
  simp only [choose, flashPH] at h
  cases h1 : solve (fun T => d.h T P - H) d.Tlow d.Thigh (some (1 / 10 ^ 6)) with
  | found t => rw [h1] at h; simp [atP] at h
  | unbracketed =>
    exfalso
    have hb := (hs.bracket _ _ _ _).1 h1
    rw [h1] at h
    simp only [outside] at h
    split_ifs at h with h2 h3
    · simp [atP] at h
    · simp [atP] at h
    · exact absurd hb (not_lt.2 (mul_nonpos_of_nonpos_of_nonneg (by linarith) (by linarith)))
  | unconverged =>
    by_cases hp : d.pure = true
    · refine ⟨hp, ?_⟩
      rw [h1] at h
      simp only [hp, if_true, byFraction] at h
      cases h2 : solve (fun v => d.hV v P - H) 0 1 none with
      | found v => simp [h2, atP] at h
      | unbracketed => exact (hs.bracket _ _ _ _).1 h2
      | unconverged => simp [h2, atP] at h
    · rw [h1] at h
      simp [hp, atP] at h

/-- It does happen: enthalpies of the two phase region that do not close the jump. -/
example : (flashCaloric anySolver { boiling true with hV := fun _ _ => 400 } (⟨none, none, 0⟩ : Object ℕ)
    { P := some 1, H := some 900 } 1).status = some .type := by
  have h1 : anySolver (fun T => ({ boiling true with hV := fun _ _ => 400 } : Pkg).h T 1 - 900) 100 4000 (some (1 / 10 ^ 6)) =
      .unconverged := by
    cases h : anySolver (fun T => ({ boiling true with hV := fun _ _ => 400 } : Pkg).h T 1 - 900) 100 4000 (some (1 / 10 ^ 6)) with
    | unconverged => rfl
    | unbracketed =>
      have := (anySolver_contract.bracket _ _ _ _).1 h
      norm_num [boiling] at this
    | found t =>
      have := (anySolver_contract.inside _ _ _ _ t (by norm_num) h).2.2 _ (by norm_num) rfl
      simp only [boiling] at this
      split_ifs at this with ht
      · rw [abs_of_neg (by linarith)] at this; norm_num at this; linarith
      · rw [abs_of_pos (by linarith)] at this; norm_num at this; linarith
  have h2 : anySolver (fun v => ({ boiling true with hV := fun _ _ => 400 } : Pkg).hV v 1 - 900) 0 1 none = .unbracketed :=
    (anySolver_contract.bracket _ _ _ _).2 (by norm_num)
  simp only [boiling] at h1 h2
  simp only [flashCaloric, choose, flashPH, boiling, byFraction, h1, h2, if_true]
  norm_num [outside, atP]

end Verif.CaloricFlash
