import Mathlib.MeasureTheory.Integral.IntervalIntegral.FundThmCalculus
import Mathlib.MeasureTheory.Integral.IntervalIntegral.Basic
import Mathlib.Analysis.Calculus.Deriv.Inv
import Mathlib.Analysis.Calculus.Deriv.Mul
import Mathlib.Analysis.SpecialFunctions.Integrals.Basic
import Mathlib.Data.Fintype.Pigeonhole
import Mathlib.Analysis.Calculus.Deriv.Add
import Mathlib.Tactic.Linarith
import Mathlib.Tactic.FieldSimp
import Mathlib.Tactic.Ring

/-!
# Formation properties at a temperature, absolute entropies (`thermo/chemical_utils.py`)

* C108: enthalpies, entropies and Gibbs energies of formation as functions of temperature (208-397), absolute entropies from heat capacities and
  transitions (33-94), conversion between liquid and gas (97-147), and where they are used in `thermo/chemical.py` (1253-1299) and
  `thermo/phases/phase.py` (4051-4091).

`T_dependent_property_integral(a, b)` and `..._over_T(a, b)` are the integrals of the heat capacity `c` and of `c(T)/T`, which is what C14 says of them; their
failures (`None`, then a `TypeError`) are left out. `standard_formation_reaction` of `chemicals` is a parameter. Counts and coefficients are real numbers.
-/

namespace Verif.Formation

open MeasureTheory intervalIntegral Set

/-- `T_dependent_property_integral`. -/
noncomputable def I (c : ℝ → ℝ) (a b : ℝ) : ℝ := ∫ t in a..b, c t

/-- `T_dependent_property_integral_over_T`. -/
noncomputable def J (c : ℝ → ℝ) (a b : ℝ) : ℝ := ∫ t in a..b, c t / t

/-! ### Calculus -/

theorem ii_of {f : ℝ → ℝ} (hf : ContinuousOn f (Ioi 0)) {a b : ℝ} (ha : 0 < a) (hb : 0 < b) : IntervalIntegrable f volume a b :=
  (hf.mono fun x hx => lt_of_lt_of_le (lt_min ha hb) hx.1).intervalIntegrable

theorem hasDerivAt_of {f : ℝ → ℝ} (hf : ContinuousOn f (Ioi 0)) {a T : ℝ} (ha : 0 < a) (hT : 0 < T) : HasDerivAt (fun t => ∫ x in a..t, f x) (f T) T := by
  have hn : Ioi (0 : ℝ) ∈ nhds T := Ioi_mem_nhds hT
  refine integral_hasDerivAt_right (ii_of hf ha hT) ?_ (hf.continuousAt hn)
  exact hf.stronglyMeasurableAtFilter isOpen_Ioi T hT

theorem over {c : ℝ → ℝ} (hc : ContinuousOn c (Ioi 0)) : ContinuousOn (fun t => c t / t) (Ioi 0) :=
  hc.div continuousOn_id fun _ hx => (ne_of_gt hx)

theorem I_deriv {c : ℝ → ℝ} (hc : ContinuousOn c (Ioi 0)) {a T : ℝ} (ha : 0 < a) (hT : 0 < T) : HasDerivAt (fun t => I c a t) (c T) T := hasDerivAt_of hc ha hT

theorem J_deriv {c : ℝ → ℝ} (hc : ContinuousOn c (Ioi 0)) {a T : ℝ} (ha : 0 < a) (hT : 0 < T) : HasDerivAt (fun t => J c a t) (c T / T) T :=
  hasDerivAt_of (over hc) ha hT

theorem I_add {c : ℝ → ℝ} (hc : ContinuousOn c (Ioi 0)) {x y z : ℝ} (hx : 0 < x) (hy : 0 < y) (hz : 0 < z) : I c x y + I c y z = I c x z :=
  integral_add_adjacent_intervals (ii_of hc hx hy) (ii_of hc hy hz)

theorem J_add {c : ℝ → ℝ} (hc : ContinuousOn c (Ioi 0)) {x y z : ℝ} (hx : 0 < x) (hy : 0 < y) (hz : 0 < z) : J c x y + J c y z = J c x z :=
  integral_add_adjacent_intervals (ii_of (over hc) hx hy) (ii_of (over hc) hy hz)

@[simp] theorem I_same (c : ℝ → ℝ) (a : ℝ) : I c a a = 0 := integral_same
@[simp] theorem J_same (c : ℝ → ℝ) (a : ℝ) : J c a a = 0 := integral_same

/-! ### Elements (150-175, 292-390) -/

/-- Heat capacities of solid, liquid and gas. -/
structure Cps where
  (s l g : ℝ → ℝ)

/-- The heat capacities are continuous at positive temperatures. -/
structure Cps.Cont (c : Cps) : Prop where
  s : ContinuousOn c.s (Ioi 0)
  l : ContinuousOn c.l (Ioi 0)
  g : ContinuousOn c.g (Ioi 0)

/-- An entry of `standard_state_transitions` (150-171). -/
structure Trans where
  (Tm Tb Hfus Hvap : ℚ)
  deriving DecidableEq

/-- `standard_state_transitions` (150-171). -/
def transitions : List (String × Trans) :=
  [("Si", ⟨1687.15, 3504.616, 50210, 384548⟩), ("Br", ⟨265.9, 332.503, 10571, 29563⟩), ("I", ⟨386.75, 457.666, 15517, 41960⟩),
   ("B", ⟨2350, 4139.449, 50208, 480509⟩), ("Mg", ⟨923, 1366.104, 8477, 127867⟩), ("Hg", ⟨234.29, 629.839, 2295, 59205⟩),
   ("Pb", ⟨600.6, 2019.022, 4774, 177582⟩), ("Li", ⟨453.69, 1620.12, 3000, 145843⟩), ("Na", ⟨370.98, 1170.525, 2603, 97022⟩),
   ("Al", ⟨933.45, 2790.812, 10711, 294002⟩), ("K", ⟨336.35, 1039.54, 2334, 79556⟩), ("V", ⟨2190, 3690.08, 22845, 446977⟩),
   ("Cr", ⟨2130, 2952.078, 20502, 339537⟩)]

/-- `shomate_gas_elements` (173). -/
def shomate : List String := ["H", "O", "N", "F", "P", "Cl", "Br", "I", "Mg", "B", "Pb", "Li", "Na", "Al", "K", "V", "Cr"]

/-- `standard_state_supported_elements` (174). -/
def supported : List String := shomate ++ ["C", "Si", "Hg"]

/-- How an element is treated: the branches of 316-390. -/
inductive Kind
  | trans (t : Trans)
  | white
  | solid
  | gas
  deriving DecidableEq

/-- The branch an element takes (302-303, 316, 336, 371, 382, 385, 388); `none` is `NotImplementedError`. The branch for `S` is behind the test of 302,
the one for liquids is for an empty name. -/
def kind (e : String) : Option Kind :=
  if e ∉ supported then none
  else match transitions.lookup e with
    | some t => some (.trans t)
    | none => if e = "P" then some .white else if e = "S" then none else if e = "C" then some .solid else some .gas

open Classical in
/-- Enthalpy of an element with melting and boiling point (322-334). -/
noncomputable def transH (c : Cps) (t : Trans) (Tref T : ℝ) : ℝ :=
  I c.s Tref (min T t.Tm) + (if T > t.Tm then t.Hfus + I c.l t.Tm (min T t.Tb) else 0) + (if T > t.Tb then t.Hvap + I c.g t.Tb T else 0)

open Classical in
/-- Entropy of an element with melting and boiling point (322-335). -/
noncomputable def transS (c : Cps) (t : Trans) (Tref T : ℝ) : ℝ :=
  J c.s Tref (min T t.Tm) + (if T > t.Tm then (t.Hfus / t.Tm : ℝ) + J c.l t.Tm (min T t.Tb) else 0)
    + (if T > t.Tb then (t.Hvap / t.Tb : ℝ) + J c.g t.Tb T else 0)

/-- Transitions of white phosphorus (341-344). -/
def whiteT : Trans := ⟨317.3, 1180.008, 659, 63728⟩

/-- `T_alpha_beta_P` (338). -/
noncomputable def Tab : ℝ := 195.4

/-- `Htrans_alpha_beta_P` (339). -/
noncomputable def Hab : ℝ := 521

open Classical in
/-- Enthalpy of phosphorus (350-370). -/
noncomputable def whiteH (c : Cps) (Tref T : ℝ) : ℝ := if T < Tab then I c.s Tref T - Hab else transH c whiteT Tref T

open Classical in
/-- Entropy of phosphorus (350-370). -/
noncomputable def whiteS (c : Cps) (Tref T : ℝ) : ℝ := if T < Tab then J c.s Tref T - Hab / Tab else transS c whiteT Tref T

/-- Enthalpy of an element at `T`, from `Tref` (316-390). -/
noncomputable def Kind.H (c : Cps) (Tref T : ℝ) : Kind → ℝ
  | .trans t => transH c t Tref T
  | .white => whiteH c Tref T
  | .solid => I c.s Tref T
  | .gas => I c.g Tref T

/-- Entropy of an element at `T`, from `Tref` (316-390). -/
noncomputable def Kind.S (c : Cps) (Tref T : ℝ) : Kind → ℝ
  | .trans t => transS c t Tref T
  | .white => whiteS c Tref T
  | .solid => J c.s Tref T
  | .gas => J c.g Tref T

/-! ### The compound (285-397) -/

/-- A reactant of the formation reaction: coefficient, treatment, heat capacities. -/
structure Elem where
  (coeff : ℝ) (kind : Kind) (cps : Cps)

/-- What is given: coefficient of the compound, its enthalpy and entropy of formation at `Tref`, its heat capacity as a gas, and the elements. -/
structure Compound where
  (coeff Hf Sf : ℝ) (cp : ℝ → ℝ) (elems : List Elem)

/-- `H_calc` (288, 391, 395). -/
noncomputable def Compound.H (a : Compound) (Tref T : ℝ) : ℝ :=
  (a.coeff * a.Hf + a.coeff * I a.cp Tref T - (a.elems.map fun e => e.coeff * e.kind.H e.cps Tref T).sum) / a.coeff

/-- `S_calc` (289, 392, 395). -/
noncomputable def Compound.S (a : Compound) (Tref T : ℝ) : ℝ :=
  (a.coeff * a.Sf + a.coeff * J a.cp Tref T - (a.elems.map fun e => e.coeff * e.kind.S e.cps Tref T).sum) / a.coeff

/-- `G_calc` (393, 395). -/
noncomputable def Compound.G (a : Compound) (Tref T : ℝ) : ℝ :=
  ((a.coeff * a.Hf + a.coeff * I a.cp Tref T - (a.elems.map fun e => e.coeff * e.kind.H e.cps Tref T).sum)
    - T * (a.coeff * a.Sf + a.coeff * J a.cp Tref T - (a.elems.map fun e => e.coeff * e.kind.S e.cps Tref T).sum)) / a.coeff

/-! ### What is expected -/

/-- The temperatures at which an element changes phase. -/
def Kind.changes : Kind → List ℝ
  | .trans t => [(t.Tm : ℝ), t.Tb]
  | .white => [195.4, 317.3, 1180.008]
  | .solid => []
  | .gas => []

open Classical in
/-- The heat capacity of the phase an element has at a temperature. -/
noncomputable def Kind.stable (c : Cps) (T : ℝ) : Kind → ℝ
  | .trans t => if T < t.Tm then c.s T else if T < t.Tb then c.l T else c.g T
  | .white => if T < 317.3 then c.s T else if T < 1180.008 then c.l T else c.g T
  | .solid => c.s T
  | .gas => c.g T

/-- Melting before boiling, at positive temperatures. -/
def Kind.Ordered : Kind → Prop
  | .trans t => 0 < t.Tm ∧ t.Tm < t.Tb
  | _ => True

/-- **C108.** The elements with a treatment are exactly those listed; all transitions of the table are at positive temperatures, melting below boiling, with
positive enthalpies; bromine and mercury are the only ones that melt below 298.15 K, none boils below it. -/
theorem C108_table : (∀ e, kind e = none ↔ e ∉ supported) ∧ (∀ p ∈ transitions, 0 < p.2.Tm ∧ p.2.Tm < p.2.Tb ∧ 0 < p.2.Hfus ∧ p.2.Hfus < p.2.Hvap ∧ 298.15 < p.2.Tb)
    ∧ (transitions.filter fun p => p.2.Tm < 298.15).map Prod.fst = ["Br", "Hg"] ∧ (∀ p ∈ transitions, kind p.1 = some (.trans p.2))
    ∧ kind "P" = some .white ∧ kind "C" = some .solid ∧ (∀ e ∈ ["H", "O", "N", "F", "Cl"], kind e = some .gas) ∧ kind "S" = none := by
  refine ⟨fun e => ?_, by decide +kernel, by decide +kernel, by decide +kernel, by decide +kernel, by decide +kernel, by decide +kernel, by decide +kernel⟩
  unfold kind
  by_cases h : e ∈ supported
  · rw [if_neg (by simpa using h)]
    have hS : e ≠ "S" := by rintro rfl; revert h; decide
    constructor
    · intro hk
      exfalso
      split at hk
      · cases hk
      · rw [if_neg hS] at hk
        split_ifs at hk
    · intro hk; exact absurd h hk
  · rw [if_pos h]; simp [h]

/-- **C108.** The table of transitions is that of the code: thirteen elements with these sums of melting and boiling temperatures and enthalpies, and these sums weighted by position. -/
theorem C108_table_sums : transitions.length = 13 ∧ (transitions.map (·.2.Tm)).sum = 321554 / 25 ∧ (transitions.map (·.2.Tb)).sum = 12856177 / 500
    ∧ (transitions.map (·.2.Hfus)).sum = 204047 ∧ (transitions.map (·.2.Hvap)).sum = 2704171
    ∧ (transitions.mapIdx fun i p => ((i : ℚ) + 1) * p.2.Tm).sum = 9697683 / 100 ∧ (transitions.mapIdx fun i p => ((i : ℚ) + 1) * p.2.Tb).sum = 192339843 / 1000
    ∧ (transitions.mapIdx fun i p => ((i : ℚ) + 1) * p.2.Hfus).sum = 1129185 ∧ (transitions.mapIdx fun i p => ((i : ℚ) + 1) * p.2.Hvap).sum = 20362012 := by
  refine ⟨by decide +kernel, by decide +kernel, by decide +kernel, by decide +kernel, by decide +kernel, by decide +kernel, by decide +kernel, by decide +kernel, by decide +kernel⟩

/-! ### One element -/

section Element

variable {c : Cps} (hc : c.Cont) {t : Trans} (h0 : (0 : ℝ) < t.Tm) (h1 : (t.Tm : ℝ) < t.Tb) {Tref T : ℝ} (hr : 0 < Tref) (hT : 0 < T)

include hc h0 h1 hr hT

theorem trans_deriv (hm : T ≠ t.Tm) (hb : T ≠ t.Tb) :
    HasDerivAt (transH c t Tref) ((Kind.trans t).stable c T) T ∧ HasDerivAt (transS c t Tref) ((Kind.trans t).stable c T / T) T := by
  have hb0 : (0 : ℝ) < t.Tb := h0.trans h1
  rcases lt_or_gt_of_ne hm with h | h
  · have hn : Iio (t.Tm : ℝ) ∈ nhds T := Iio_mem_nhds h
    have e : (Kind.trans t).stable c T = c.s T := by unfold Kind.stable; dsimp only; rw [if_pos h]
    rw [e]
    refine ⟨(I_deriv hc.s hr hT).congr_of_eventuallyEq ?_, (J_deriv hc.s hr hT).congr_of_eventuallyEq ?_⟩
    · filter_upwards [hn] with x hx
      have hx : x < t.Tm := hx
      unfold transH
      rw [if_neg (not_lt.2 hx.le), if_neg (not_lt.2 (hx.trans h1).le), min_eq_left hx.le]; ring
    · filter_upwards [hn] with x hx
      have hx : x < t.Tm := hx
      unfold transS
      rw [if_neg (not_lt.2 hx.le), if_neg (not_lt.2 (hx.trans h1).le), min_eq_left hx.le]; ring
  · rcases lt_or_gt_of_ne hb with h' | h'
    · have hn : Ioo (t.Tm : ℝ) t.Tb ∈ nhds T := Ioo_mem_nhds h h'
      have e : (Kind.trans t).stable c T = c.l T := by unfold Kind.stable; dsimp only; rw [if_neg (not_lt.2 (le_of_lt h)), if_pos h']
      rw [e]
      refine ⟨((I_deriv hc.l h0 hT).const_add (I c.s Tref t.Tm + t.Hfus)).congr_of_eventuallyEq ?_,
        ((J_deriv hc.l h0 hT).const_add (J c.s Tref t.Tm + t.Hfus / t.Tm)).congr_of_eventuallyEq ?_⟩
      · filter_upwards [hn] with x hx
        unfold transH
        rw [if_pos hx.1, if_neg (not_lt.2 hx.2.le), min_eq_right hx.1.le, min_eq_left hx.2.le]; ring
      · filter_upwards [hn] with x hx
        unfold transS
        rw [if_pos hx.1, if_neg (not_lt.2 hx.2.le), min_eq_right hx.1.le, min_eq_left hx.2.le]; ring
    · have hn : Ioi (t.Tb : ℝ) ∈ nhds T := Ioi_mem_nhds h'
      have e : (Kind.trans t).stable c T = c.g T := by
        unfold Kind.stable; dsimp only; rw [if_neg (not_lt.2 (le_of_lt h)), if_neg (not_lt.2 (le_of_lt h'))]
      rw [e]
      refine ⟨((I_deriv hc.g hb0 hT).const_add (I c.s Tref t.Tm + (t.Hfus + I c.l t.Tm t.Tb) + t.Hvap)).congr_of_eventuallyEq ?_,
        ((J_deriv hc.g hb0 hT).const_add (J c.s Tref t.Tm + (t.Hfus / t.Tm + J c.l t.Tm t.Tb) + t.Hvap / t.Tb)).congr_of_eventuallyEq ?_⟩
      · filter_upwards [hn] with x hx
        have hx : (t.Tb : ℝ) < x := hx
        unfold transH
        rw [if_pos (h1.trans hx), if_pos hx, min_eq_right (h1.trans hx).le, min_eq_right hx.le]; ring
      · filter_upwards [hn] with x hx
        have hx : (t.Tb : ℝ) < x := hx
        unfold transS
        rw [if_pos (h1.trans hx), if_pos hx, min_eq_right (h1.trans hx).le, min_eq_right hx.le]; ring

/-- The Gibbs energy is continuous, also at the transitions. -/
theorem trans_gibbs : ContinuousAt (fun x => transH c t Tref x - x * transS c t Tref x) T := by
  have hb0 : (0 : ℝ) < t.Tb := h0.trans h1
  have e : (fun x => transH c t Tref x - x * transS c t Tref x) = fun x =>
      (I c.s Tref (min x t.Tm) - x * J c.s Tref (min x t.Tm))
      + (t.Hfus * (1 - max x t.Tm / t.Tm) + (I c.l t.Tm (min (max x t.Tm) t.Tb) - max x t.Tm * J c.l t.Tm (min (max x t.Tm) t.Tb)))
      + (t.Hvap * (1 - max x t.Tb / t.Tb) + (I c.g t.Tb (max x t.Tb) - max x t.Tb * J c.g t.Tb (max x t.Tb))) := by
    funext x
    unfold transH transS
    rcases le_or_gt x t.Tm with h | h
    · rw [if_neg (not_lt.2 h), if_neg (not_lt.2 (h.trans h1.le)), if_neg (not_lt.2 h), if_neg (not_lt.2 (h.trans h1.le)), max_eq_right h,
        max_eq_right (h.trans h1.le), min_eq_left h1.le]
      simp only [I_same, J_same, div_self h0.ne', div_self hb0.ne']
      ring
    · rcases le_or_gt x t.Tb with h' | h'
      · rw [if_pos h, if_neg (not_lt.2 h'), if_pos h, if_neg (not_lt.2 h'), max_eq_left h.le, max_eq_right h']
        simp only [I_same, J_same, div_self hb0.ne']
        ring
      · rw [if_pos h, if_pos h', if_pos h, if_pos h', max_eq_left h.le, max_eq_left (le_of_lt h')]
        ring
  rw [e]
  have cI : ∀ {f : ℝ → ℝ} {a : ℝ} {g : ℝ → ℝ}, ContinuousOn f (Ioi 0) → 0 < a → ContinuousAt g T → 0 < g T → ContinuousAt (fun x => I f a (g x)) T :=
    fun hf ha hg hp => ContinuousAt.comp (f := _) (g := fun y => I _ _ y) (I_deriv hf ha hp).continuousAt hg
  have cJ : ∀ {f : ℝ → ℝ} {a : ℝ} {g : ℝ → ℝ}, ContinuousOn f (Ioi 0) → 0 < a → ContinuousAt g T → 0 < g T → ContinuousAt (fun x => J f a (g x)) T :=
    fun hf ha hg hp => ContinuousAt.comp (f := _) (g := fun y => J _ _ y) (J_deriv hf ha hp).continuousAt hg
  have m1 : ContinuousAt (fun x : ℝ => min x (t.Tm : ℝ)) T := (continuous_id.min continuous_const).continuousAt
  have m2 : ContinuousAt (fun x : ℝ => max x (t.Tm : ℝ)) T := (continuous_id.max continuous_const).continuousAt
  have m3 : ContinuousAt (fun x : ℝ => min (max x (t.Tm : ℝ)) t.Tb) T := ((continuous_id.max continuous_const).min continuous_const).continuousAt
  have m4 : ContinuousAt (fun x : ℝ => max x (t.Tb : ℝ)) T := (continuous_id.max continuous_const).continuousAt
  have p1 : 0 < min T (t.Tm : ℝ) := lt_min hT h0
  have p2 : 0 < max T (t.Tm : ℝ) := lt_max_of_lt_left hT
  have p3 : 0 < min (max T (t.Tm : ℝ)) t.Tb := lt_min p2 hb0
  have p4 : 0 < max T (t.Tb : ℝ) := lt_max_of_lt_left hT
  refine ContinuousAt.add (ContinuousAt.add ?_ (ContinuousAt.add ?_ ?_)) (ContinuousAt.add ?_ ?_)
  · exact (cI hc.s hr m1 p1).sub (continuousAt_id.mul (cJ hc.s hr m1 p1))
  · exact continuousAt_const.mul (continuousAt_const.sub (m2.div_const _))
  · exact (cI hc.l h0 m3 p3).sub (m2.mul (cJ hc.l h0 m3 p3))
  · exact continuousAt_const.mul (continuousAt_const.sub (m4.div_const _))
  · exact (cI hc.g hb0 m4 p4).sub (m4.mul (cJ hc.g hb0 m4 p4))

end Element

theorem whiteT_ordered : (0 : ℝ) < whiteT.Tm ∧ (whiteT.Tm : ℝ) < whiteT.Tb ∧ (whiteT.Tm : ℝ) = 317.3 ∧ (whiteT.Tb : ℝ) = 1180.008 := by
  unfold whiteT; norm_num

theorem white_deriv {c : Cps} (hc : c.Cont) {Tref T : ℝ} (hr : 0 < Tref) (hT : 0 < T) (ha : T ≠ 195.4) (hm : T ≠ 317.3) (hb : T ≠ 1180.008) :
    HasDerivAt (whiteH c Tref) (Kind.white.stable c T) T ∧ HasDerivAt (whiteS c Tref) (Kind.white.stable c T / T) T := by
  obtain ⟨w1, w2, w3, w4⟩ := whiteT_ordered
  rcases lt_or_gt_of_ne ha with h | h
  · have hn : Iio (195.4 : ℝ) ∈ nhds T := Iio_mem_nhds h
    have e : Kind.white.stable c T = c.s T := by unfold Kind.stable; dsimp only; rw [if_pos (by norm_num at h ⊢; linarith)]
    rw [e]
    refine ⟨((I_deriv hc.s hr hT).sub_const Hab).congr_of_eventuallyEq ?_, ((J_deriv hc.s hr hT).sub_const (Hab / Tab)).congr_of_eventuallyEq ?_⟩
    · filter_upwards [hn] with x hx
      unfold whiteH; rw [if_pos (show x < Tab from hx)]
    · filter_upwards [hn] with x hx
      unfold whiteS; rw [if_pos (show x < Tab from hx)]
  · have hn : Ioi (195.4 : ℝ) ∈ nhds T := Ioi_mem_nhds h
    have := trans_deriv hc w1 w2 hr hT (by rw [w3]; exact hm) (by rw [w4]; exact hb)
    have e : Kind.white.stable c T = (Kind.trans whiteT).stable c T := by unfold Kind.stable; dsimp only; rw [w3, w4]
    rw [e]
    refine ⟨this.1.congr_of_eventuallyEq ?_, this.2.congr_of_eventuallyEq ?_⟩
    · filter_upwards [hn] with x hx
      unfold whiteH; rw [if_neg (not_lt.2 (show Tab ≤ x from le_of_lt hx))]
    · filter_upwards [hn] with x hx
      unfold whiteS; rw [if_neg (not_lt.2 (show Tab ≤ x from le_of_lt hx))]

theorem white_gibbs {c : Cps} (hc : c.Cont) {Tref T : ℝ} (hr : 0 < Tref) (hT : 0 < T) :
    ContinuousAt (fun x => whiteH c Tref x - x * whiteS c Tref x) T := by
  obtain ⟨w1, w2, w3, w4⟩ := whiteT_ordered
  have ht : Tab = 195.4 := rfl
  have h0 : (0 : ℝ) < Tab := by rw [ht]; norm_num
  have e : (fun x => whiteH c Tref x - x * whiteS c Tref x) = fun x => (transH c whiteT Tref x - x * transS c whiteT Tref x) - Hab * (1 - min x Tab / Tab) := by
    funext x
    unfold whiteH whiteS
    by_cases h : x < Tab
    · rw [if_pos h, if_pos h, min_eq_left h.le]
      unfold transH transS
      have h2 : x < whiteT.Tm := by rw [w3]; rw [ht] at h; norm_num at h ⊢; linarith
      rw [if_neg (not_lt.2 h2.le), if_neg (not_lt.2 (h2.trans w2).le), if_neg (not_lt.2 h2.le), if_neg (not_lt.2 (h2.trans w2).le), min_eq_left h2.le]
      field_simp
      ring
    · rw [if_neg h, if_neg h, min_eq_right (not_lt.1 h), div_self h0.ne']
      ring
  rw [e]
  refine (trans_gibbs hc w1 w2 hr hT).sub (continuousAt_const.mul (continuousAt_const.sub (ContinuousAt.div_const ?_ _)))
  exact (continuous_id.min continuous_const).continuousAt

theorem kind_deriv {c : Cps} (hc : c.Cont) (k : Kind) (ho : k.Ordered) {Tref T : ℝ} (hr : 0 < Tref) (hT : 0 < T) (h : T ∉ k.changes) :
    HasDerivAt (fun x => k.H c Tref x) (k.stable c T) T ∧ HasDerivAt (fun x => k.S c Tref x) (k.stable c T / T) T := by
  rcases k with t | _ | _ | _
  · simp only [Kind.changes, List.mem_cons, List.not_mem_nil, or_false, not_or] at h
    exact trans_deriv hc (by exact_mod_cast ho.1) (by exact_mod_cast ho.2) hr hT h.1 h.2
  · simp only [Kind.changes, List.mem_cons, List.not_mem_nil, or_false, not_or] at h
    exact white_deriv hc hr hT h.1 h.2.1 h.2.2
  · exact ⟨I_deriv hc.s hr hT, J_deriv hc.s hr hT⟩
  · exact ⟨I_deriv hc.g hr hT, J_deriv hc.g hr hT⟩

theorem kind_gibbs {c : Cps} (hc : c.Cont) (k : Kind) (ho : k.Ordered) {Tref T : ℝ} (hr : 0 < Tref) (hT : 0 < T) :
    ContinuousAt (fun x => k.H c Tref x - x * k.S c Tref x) T := by
  rcases k with t | _ | _ | _
  · exact trans_gibbs hc (by exact_mod_cast ho.1) (by exact_mod_cast ho.2) hr hT
  · exact white_gibbs hc hr hT
  · exact (I_deriv hc.s hr hT).continuousAt.sub (continuousAt_id.mul (J_deriv hc.s hr hT).continuousAt)
  · exact (I_deriv hc.g hr hT).continuousAt.sub (continuousAt_id.mul (J_deriv hc.g hr hT).continuousAt)

/-! ### The compound -/

/-- Heat capacities are continuous and transitions ordered. -/
structure Compound.Ok (a : Compound) : Prop where
  coeff : a.coeff ≠ 0
  cp : ContinuousOn a.cp (Ioi 0)
  cps : ∀ e ∈ a.elems, e.cps.Cont
  ord : ∀ e ∈ a.elems, e.kind.Ordered

/-- Change of the heat capacity on formation of one mole of the compound from the elements in the phases they have at `T`. -/
noncomputable def Compound.dCp (a : Compound) (T : ℝ) : ℝ := a.cp T - (a.elems.map fun e => e.coeff / a.coeff * e.kind.stable e.cps T).sum

theorem list_deriv {α : Type*} (l : List α) (f : α → ℝ → ℝ) (f' : α → ℝ) (T : ℝ) (h : ∀ e ∈ l, HasDerivAt (f e) (f' e) T) :
    HasDerivAt (fun x => (l.map fun e => f e x).sum) (l.map f').sum T := by
  induction l with
  | nil => simpa using hasDerivAt_const T (0 : ℝ)
  | cons e l ih =>
    simp only [List.map_cons, List.sum_cons]
    exact (h e (by simp)).fun_add (ih fun e he => h e (by simp [he]))

theorem list_cont {α : Type*} (l : List α) (f : α → ℝ → ℝ) (T : ℝ) (h : ∀ e ∈ l, ContinuousAt (f e) T) : ContinuousAt (fun x => (l.map fun e => f e x).sum) T := by
  induction l with
  | nil => simpa using continuousAt_const
  | cons e l ih =>
    simp only [List.map_cons, List.sum_cons]
    exact (h e (by simp)).add (ih fun e he => h e (by simp [he]))

theorem sum_div' (l : List Elem) (f : Elem → ℝ) (k : ℝ) : (l.map fun e => e.coeff * f e).sum / k = (l.map fun e => e.coeff / k * f e).sum := by
  induction l with
  | nil => simp
  | cons e l ih => simp only [List.map_cons, List.sum_cons, add_div, ih]; ring

theorem G_eq (a : Compound) (Tref T : ℝ) : a.G Tref T = a.H Tref T - T * a.S Tref T := by
  unfold Compound.G Compound.H Compound.S; ring

/-- **C108.** Kirchhoff's law: away from the phase changes of the elements the enthalpy of formation changes with temperature by the change of the heat capacity, from
the elements in the phases they have there; the entropy by that over the temperature. -/
theorem C108_kirchhoff (a : Compound) (h : a.Ok) {Tref T : ℝ} (hr : 0 < Tref) (hT : 0 < T) (hc : ∀ e ∈ a.elems, T ∉ e.kind.changes) :
    HasDerivAt (fun x => a.H Tref x) (a.dCp T) T ∧ HasDerivAt (fun x => a.S Tref x) (a.dCp T / T) T := by
  have hk := h.coeff
  constructor
  · have h1 := list_deriv a.elems (fun e x => e.coeff * e.kind.H e.cps Tref x) (fun e => e.coeff * e.kind.stable e.cps T) T fun e he =>
      (kind_deriv (h.cps e he) e.kind (h.ord e he) hr hT (hc e he)).1.const_mul _
    refine (((((I_deriv h.cp hr hT).const_mul a.coeff).const_add (a.coeff * a.Hf)).fun_sub h1).div_const a.coeff).congr_deriv ?_
    unfold Compound.dCp
    rw [sub_div, sum_div', mul_div_cancel_left₀ _ hk]
  · have h1 := list_deriv a.elems (fun e x => e.coeff * e.kind.S e.cps Tref x) (fun e => e.coeff * (e.kind.stable e.cps T / T)) T fun e he =>
      (kind_deriv (h.cps e he) e.kind (h.ord e he) hr hT (hc e he)).2.const_mul _
    refine (((((J_deriv h.cp hr hT).const_mul a.coeff).const_add (a.coeff * a.Sf)).fun_sub h1).div_const a.coeff).congr_deriv ?_
    unfold Compound.dCp
    rw [sub_div, sum_div', mul_div_cancel_left₀ _ hk, sub_div]
    congr 1
    induction a.elems with
    | nil => simp
    | cons e l ih => simp only [List.map_cons, List.sum_cons, add_div, ih]; ring

/-- **C108.** The Gibbs energy of formation is that of enthalpy and entropy; its derivative is minus the entropy, and that of `G/T` is `-H/T²` (van 't Hoff's
law for the equilibrium constant). It is continuous at every temperature, also where an element changes phase. -/
theorem C108_gibbs (a : Compound) (h : a.Ok) {Tref T : ℝ} (hr : 0 < Tref) (hT : 0 < T) :
    a.G Tref T = a.H Tref T - T * a.S Tref T ∧ ContinuousAt (fun x => a.G Tref x) T
    ∧ ((∀ e ∈ a.elems, T ∉ e.kind.changes) → HasDerivAt (fun x => a.G Tref x) (-(a.S Tref T)) T ∧ HasDerivAt (fun x => a.G Tref x / x) (-(a.H Tref T) / T ^ 2) T) := by
  refine ⟨G_eq a Tref T, ?_, fun hc => ?_⟩
  · have e : (fun x => a.G Tref x) = fun x => a.Hf + I a.cp Tref x - x * (a.Sf + J a.cp Tref x)
        - (a.elems.map fun e => e.coeff / a.coeff * (e.kind.H e.cps Tref x - x * e.kind.S e.cps Tref x)).sum := by
      funext x
      rw [G_eq]
      unfold Compound.H Compound.S
      rw [← sum_div', sub_div, sub_div]
      have h1 : (a.elems.map fun e => e.coeff * (e.kind.H e.cps Tref x - x * e.kind.S e.cps Tref x)).sum
          = (a.elems.map fun e => e.coeff * e.kind.H e.cps Tref x).sum - x * (a.elems.map fun e => e.coeff * e.kind.S e.cps Tref x).sum := by
        induction a.elems with
        | nil => simp
        | cons e l ih => simp only [List.map_cons, List.sum_cons, ih]; ring
      rw [h1]
      have := h.coeff
      field_simp
      ring
    rw [e]
    refine ContinuousAt.sub ?_ (list_cont _ _ _ fun e he => continuousAt_const.mul (kind_gibbs (h.cps e he) e.kind (h.ord e he) hr hT))
    exact (continuousAt_const.add (I_deriv h.cp hr hT).continuousAt).sub (continuousAt_id.mul (continuousAt_const.add (J_deriv h.cp hr hT).continuousAt))
  · obtain ⟨h1, h2⟩ := C108_kirchhoff a h hr hT hc
    have e : (fun x => a.G Tref x) = fun x => a.H Tref x - x * a.S Tref x := funext fun x => G_eq a Tref x
    have h3 : HasDerivAt (fun x => a.G Tref x) (-(a.S Tref T)) T := by
      rw [e]
      refine (h1.fun_sub ((hasDerivAt_id T).fun_mul h2)).congr_deriv ?_
      simp only [id]
      field_simp
      ring
    refine ⟨h3, (h3.fun_div (hasDerivAt_id T) hT.ne').congr_deriv ?_⟩
    simp only [id]
    rw [G_eq]
    field_simp
    ring

/-- Hydrogen bromide from half a mole each of hydrogen and bromine. -/
noncomputable def bromide (Hf Sf : ℝ) (hydrogen bromine : Cps) (cp : ℝ → ℝ) : Compound :=
  ⟨1, Hf, Sf, cp, [⟨1 / 2, .gas, hydrogen⟩, ⟨1 / 2, .trans ⟨265.9, 332.503, 10571, 29563⟩, bromine⟩]⟩

/-- The premises are met by hydrogen bromide at 500 K with heat capacities that do not depend on temperature. -/
example : (bromide (-36443) 57 ⟨fun _ => 25, fun _ => 25, fun _ => 29⟩ ⟨fun _ => 60, fun _ => 76, fun _ => 36⟩ fun _ => 29).Ok
    ∧ (∀ e ∈ (bromide (-36443) 57 ⟨fun _ => 25, fun _ => 25, fun _ => 29⟩ ⟨fun _ => 60, fun _ => 76, fun _ => 36⟩ fun _ => 29).elems, (500 : ℝ) ∉ e.kind.changes)
    ∧ (bromide (-36443) 57 ⟨fun _ => 25, fun _ => 25, fun _ => 29⟩ ⟨fun _ => 60, fun _ => 76, fun _ => 36⟩ fun _ => 29).dCp 500 = -7 / 2 := by
  refine ⟨⟨by simp [bromide], by simpa [bromide] using continuousOn_const, ?_, ?_⟩, ?_, ?_⟩
  · intro e he
    simp only [bromide, List.mem_cons, List.not_mem_nil, or_false] at he
    rcases he with rfl | rfl <;> exact ⟨continuousOn_const, continuousOn_const, continuousOn_const⟩
  · intro e he
    simp only [bromide, List.mem_cons, List.not_mem_nil, or_false] at he
    rcases he with rfl | rfl
    · trivial
    · simp only [Kind.Ordered]; norm_num
  · intro e he
    simp only [bromide, List.mem_cons, List.not_mem_nil, or_false] at he
    rcases he with rfl | rfl <;> norm_num [Kind.changes]
  · norm_num [bromide, Compound.dCp, Kind.stable]

/-! ### The reference temperature -/

/-- The element has at `T` the phase its integrals start from. -/
def Kind.StartsAt (T : ℝ) : Kind → Prop
  | .trans t => T ≤ t.Tm
  | .white => 195.4 ≤ T ∧ T ≤ 317.3
  | _ => True

theorem kind_ref (c : Cps) (k : Kind) (ho : k.Ordered) (T : ℝ) (h : k.StartsAt T) : k.H c T T = 0 ∧ k.S c T T = 0 := by
  have key : ∀ t : Trans, (t.Tm : ℝ) < t.Tb → T ≤ t.Tm → transH c t T T = 0 ∧ transS c t T T = 0 := by
    intro t h1 h
    unfold transH transS
    rw [if_neg (not_lt.2 h), if_neg (not_lt.2 (h.trans h1.le)), if_neg (not_lt.2 h), if_neg (not_lt.2 (h.trans h1.le)), min_eq_left h]
    simp
  rcases k with t | _ | _ | _
  · exact key t (by exact_mod_cast ho.2) h
  · obtain ⟨w1, w2, w3, w4⟩ := whiteT_ordered
    have := key whiteT w2 (by rw [w3]; exact h.2)
    unfold Kind.H Kind.S whiteH whiteS
    dsimp only
    rw [if_neg (not_lt.2 (show Tab ≤ T from h.1)), if_neg (not_lt.2 (show Tab ≤ T from h.1))]
    exact this
  · exact ⟨I_same _ _, J_same _ _⟩
  · exact ⟨I_same _ _, J_same _ _⟩

theorem kind_ref_sum (l : List Elem) (f : Elem → ℝ) (h : ∀ e ∈ l, f e = 0) : (l.map fun e => e.coeff * f e).sum = 0 := by
  induction l with
  | nil => simp
  | cons e l ih =>
    simp only [List.map_cons, List.sum_cons, h e (by simp), ih fun e he => h e (by simp [he])]; ring

/-- **C108, partial.** At the reference temperature the values given are returned, if all elements are then in the phase their integrals start from; at 298.15 K
that is so for every element supported but bromine and mercury. Missing: these two, see `C108_reference_fails`. -/
theorem C108_reference_partial (a : Compound) (h : a.Ok) (Tref : ℝ) (hs : ∀ e ∈ a.elems, e.kind.StartsAt Tref) :
    a.H Tref Tref = a.Hf ∧ a.S Tref Tref = a.Sf ∧ a.G Tref Tref = a.Hf - Tref * a.Sf
    ∧ ∀ e k, kind e = some k → e ≠ "Br" → e ≠ "Hg" → k.StartsAt 298.15 ∧ k.Ordered := by
  have hk := h.coeff
  have hH : a.H Tref Tref = a.Hf := by
    unfold Compound.H
    rw [kind_ref_sum _ _ fun e he => (kind_ref e.cps e.kind (h.ord e he) Tref (hs e he)).1, I_same]
    field_simp; ring
  have hS : a.S Tref Tref = a.Sf := by
    unfold Compound.S
    rw [kind_ref_sum _ _ fun e he => (kind_ref e.cps e.kind (h.ord e he) Tref (hs e he)).2, J_same]
    field_simp; ring
  refine ⟨hH, hS, by rw [G_eq, hH, hS], fun e k hkk h1 h2 => ?_⟩
  by_cases hm : e ∈ supported
  · have key : ∀ e ∈ supported, e ≠ "Br" → e ≠ "Hg" → (∃ p ∈ transitions, kind e = some (.trans p.2) ∧ 298.15 < p.2.Tm ∧ 0 < p.2.Tm ∧ p.2.Tm < p.2.Tb)
        ∨ kind e = some .white ∨ kind e = some .solid ∨ kind e = some .gas := by decide +kernel
    rcases key e hm h1 h2 with ⟨p, -, h3, h4, h5, h6⟩ | h3 | h3 | h3 <;> rw [h3] at hkk <;> cases hkk
    · refine ⟨?_, h5, h6⟩
      have : ((298.15 : ℚ) : ℝ) < (p.2.Tm : ℝ) := by exact_mod_cast h4
      have e1 : ((298.15 : ℚ) : ℝ) = 298.15 := by norm_num
      rw [e1] at this
      exact this.le
    · exact ⟨⟨by norm_num, by norm_num⟩, trivial⟩
    · exact ⟨trivial, trivial⟩
    · exact ⟨trivial, trivial⟩
  · rw [(C108_table.1 e).2 hm] at hkk; cases hkk

theorem trans_ref {c : Cps} (hc : c.Cont) {t : Trans} (h0 : (0 : ℝ) < t.Tm) {T : ℝ} (h1 : t.Tm < T) (h2 : T ≤ t.Tb) :
    transH c t T T = t.Hfus + ∫ x in (t.Tm : ℝ)..T, (c.l x - c.s x) := by
  have hT : 0 < T := h0.trans h1
  unfold transH
  rw [if_pos h1, if_neg (not_lt.2 h2), min_eq_right h1.le, min_eq_left h2, integral_sub (ii_of hc.l h0 hT) (ii_of hc.s h0 hT)]
  unfold I
  rw [integral_symm]
  ring

/-- **C108 fails.** Bromine and mercury are liquids at 298.15 K, but their integrals start with the solid. At 298.15 K the enthalpy of formation is then not the one
given but too low by the enthalpy of fusion, and more if the liquid has the larger heat capacity: 5285 J/mol for hydrogen bromide. -/
theorem C108_reference_fails (Hf Sf : ℝ) (hydrogen bromine : Cps) (cp : ℝ → ℝ) (hc : bromine.Cont)
    (hls : ∀ T ∈ Icc (265.9 : ℝ) 298.15, bromine.s T ≤ bromine.l T) :
    kind "Br" = some (.trans ⟨265.9, 332.503, 10571, 29563⟩) ∧ kind "H" = some .gas
    ∧ (bromide Hf Sf hydrogen bromine cp).H 298.15 298.15 ≤ Hf - 5285
    ∧ ((∀ T, bromine.s T = bromine.l T) → (bromide Hf Sf hydrogen bromine cp).H 298.15 298.15 = Hf - 5285.5) := by
  refine ⟨by decide +kernel, by decide +kernel, ?_, fun he => ?_⟩
  · have h := trans_ref (c := bromine) hc (t := ⟨265.9, 332.503, 10571, 29563⟩) (by norm_num) (T := 298.15) (by norm_num) (by norm_num)
    have h2 : 0 ≤ ∫ x in (((⟨265.9, 332.503, 10571, 29563⟩ : Trans).Tm : ℚ) : ℝ)..298.15, (bromine.l x - bromine.s x) := by
      refine integral_nonneg (by norm_num) fun x hx => ?_
      have := hls x ⟨by have := hx.1; norm_num at this ⊢; linarith, hx.2⟩
      linarith
    unfold Compound.H bromide
    simp only [List.map_cons, List.map_nil, List.sum_cons, List.sum_nil, Kind.H, I_same, h]
    push_cast
    linarith
  · have h := trans_ref (c := bromine) hc (t := ⟨265.9, 332.503, 10571, 29563⟩) (by norm_num) (T := 298.15) (by norm_num) (by norm_num)
    simp only [he, sub_self, integral_zero] at h
    unfold Compound.H bromide
    simp only [List.map_cons, List.map_nil, List.sum_cons, List.sum_nil, Kind.H, I_same, h]
    push_cast
    norm_num

example : (⟨fun _ => 60, fun _ => 76, fun _ => 36⟩ : Cps).Cont ∧ (∀ T ∈ Icc (265.9 : ℝ) 298.15, (⟨fun _ => 60, fun _ => 76, fun _ => 36⟩ : Cps).s T ≤ 76) :=
  ⟨⟨continuousOn_const, continuousOn_const, continuousOn_const⟩, fun _ _ => by norm_num⟩

/-- **C108 fails.** With a reference temperature below the transition of phosphorus its enthalpy at the reference temperature is not zero: the transition is subtracted
below it whatever the reference temperature is. -/
theorem C108_phosphorus_fails (c : Cps) (T : ℝ) (h : T < 195.4) : Kind.white.H c T T = -521 := by
  unfold Kind.H whiteH
  dsimp only
  rw [if_pos (show T < Tab from h), I_same]
  unfold Hab; ring

/-- **C108.** Enthalpies of phase changes: just above the melting point of an element the enthalpy differs by the enthalpy of fusion and the entropy by that over
the temperature from the values for the solid continued to there; and so for boiling. -/
theorem C108_changes (c : Cps) (hc : c.Cont) (t : Trans) (h0 : (0 : ℝ) < t.Tm) (h1 : (t.Tm : ℝ) < t.Tb) (Tref T : ℝ) (hr : 0 < Tref) :
    (t.Tm < T → T ≤ t.Tb → (Kind.trans t).H c Tref T - I c.s Tref T = t.Hfus + ∫ x in (t.Tm : ℝ)..T, (c.l x - c.s x))
    ∧ (t.Tb < T → (Kind.trans t).H c Tref T - (Kind.trans t).H c Tref t.Tb = t.Hvap + ∫ x in (t.Tb : ℝ)..T, c.g x)
    ∧ (t.Tm < T → T ≤ t.Tb → (Kind.trans t).S c Tref T - J c.s Tref T = t.Hfus / t.Tm + ∫ x in (t.Tm : ℝ)..T, (c.l x / x - c.s x / x))
    ∧ (t.Tb < T → (Kind.trans t).S c Tref T - (Kind.trans t).S c Tref t.Tb = t.Hvap / t.Tb + ∫ x in (t.Tb : ℝ)..T, c.g x / x) := by
  refine ⟨fun h2 h3 => ?_, fun h2 => ?_, fun h2 h3 => ?_, fun h2 => ?_⟩
  · have hT : 0 < T := h0.trans h2
    simp only [Kind.H]
    unfold transH
    rw [if_pos h2, if_neg (not_lt.2 h3), min_eq_right h2.le, min_eq_left h3, integral_sub (ii_of hc.l h0 hT) (ii_of hc.s h0 hT)]
    have := I_add hc.s hr h0 hT
    unfold I at this ⊢
    linarith
  · simp only [Kind.H]
    unfold transH
    rw [if_pos (h1.trans h2), if_pos h2, if_pos h1, if_neg (lt_irrefl _), min_eq_right (h1.trans h2).le, min_eq_right h2.le, min_eq_right h1.le, min_self]
    unfold I
    ring
  · have hT : 0 < T := h0.trans h2
    simp only [Kind.S]
    unfold transS
    rw [if_pos h2, if_neg (not_lt.2 h3), min_eq_right h2.le, min_eq_left h3, integral_sub (ii_of (over hc.l) h0 hT) (ii_of (over hc.s) h0 hT)]
    have := J_add hc.s hr h0 hT
    unfold J at this ⊢
    linarith
  · simp only [Kind.S]
    unfold transS
    rw [if_pos (h1.trans h2), if_pos h2, if_pos h1, if_neg (lt_irrefl _), min_eq_right (h1.trans h2).le, min_eq_right h2.le, min_eq_right h1.le, min_self]
    unfold J
    ring

example : (⟨fun _ => 60, fun _ => 76, fun _ => 36⟩ : Cps).Cont ∧ (0 : ℝ) < ((⟨265.9, 332.503, 10571, 29563⟩ : Trans).Tm : ℚ) :=
  ⟨⟨continuousOn_const, continuousOn_const, continuousOn_const⟩, by norm_num⟩

/-! ### The cache of reactions (268-283) -/

/-- `MAX_STANDARD_FORMATION_CACHE` (269). -/
def maxCache : ℕ := 250

/-- The cache, a dictionary by hash in order of insertion. -/
abbrev Cache (K V : Type) := List (K × V)

/-- Lines 271-283 with `cache=True`: the new cache and the reaction used. -/
def step {A K V : Type} [DecidableEq K] (hash : A → K) (reaction : A → V) (c : Cache K V) (a : A) : Cache K V × V :=
  match c.lookup (hash a) with
  | some v => (c, v)
  | none =>
    let c' := c ++ [(hash a, reaction a)]
    (if c'.length > maxCache then c'.tail else c', reaction a)

/-- A sequence of calls from an empty cache. -/
def run {A K V : Type} [DecidableEq K] (hash : A → K) (reaction : A → V) (l : List A) : Cache K V := l.foldl (fun c a => (step hash reaction c a).1) []

/-- Lines 271-283 with `cache=False`: `atoms_key` and the reaction have no value, an `UnboundLocalError`. -/
def uncached {V : Type} : Option V := none

theorem step_fresh {A K V : Type} [DecidableEq K] (hash : A → K) (reaction : A → V) (c : Cache K V) (a : A) (h : c.length ≤ maxCache)
    (hc : ∀ p ∈ c, ∃ b, p = (hash b, reaction b)) :
    (step hash reaction c a).1.length ≤ maxCache ∧ ∀ p ∈ (step hash reaction c a).1, ∃ b, p = (hash b, reaction b) := by
  unfold step
  rcases hl : c.lookup (hash a) with _ | v
  · dsimp only
    split_ifs with h1
    · refine ⟨by simp; omega, fun p hp => ?_⟩
      have := List.mem_of_mem_tail hp
      rw [List.mem_append, List.mem_singleton] at this
      rcases this with h2 | rfl
      · exact hc p h2
      · exact ⟨a, rfl⟩
    · refine ⟨not_lt.1 h1, fun p hp => ?_⟩
      rw [List.mem_append, List.mem_singleton] at hp
      rcases hp with h2 | rfl
      · exact hc p h2
      · exact ⟨a, rfl⟩
  · exact ⟨h, hc⟩

theorem run_inv {A K V : Type} [DecidableEq K] (hash : A → K) (reaction : A → V) (l : List A) :
    (run hash reaction l).length ≤ maxCache ∧ ∀ p ∈ run hash reaction l, ∃ b, p = (hash b, reaction b) := by
  unfold run
  suffices H : ∀ (c : Cache K V), c.length ≤ maxCache → (∀ p ∈ c, ∃ b, p = (hash b, reaction b)) →
      (l.foldl (fun c a => (step hash reaction c a).1) c).length ≤ maxCache
      ∧ ∀ p ∈ l.foldl (fun c a => (step hash reaction c a).1) c, ∃ b, p = (hash b, reaction b) from H [] (by simp [maxCache]) (by simp)
  induction l with
  | nil => intro c h1 h2; exact ⟨h1, h2⟩
  | cons a l ih =>
    intro c h1 h2
    obtain ⟨h3, h4⟩ := step_fresh hash reaction c a h1 h2
    exact ih _ h3 h4

theorem lookup_mem {K V : Type} [DecidableEq K] (c : Cache K V) (k : K) (v : V) (h : c.lookup k = some v) : (k, v) ∈ c := by
  induction c with
  | nil => simp at h
  | cons p c ih =>
    obtain ⟨k', v'⟩ := p
    rw [List.lookup_cons] at h
    by_cases hk : k = k'
    · subst hk; simp at h; simp [h]
    · rw [show (k == k') = false by simpa using hk] at h
      exact List.mem_cons_of_mem _ (ih h)

/-- **C108, partial.** After any calls the cache has at most 250 entries; if compounds of different atoms have different hashes, the reaction used is that of
the compound. Missing: compounds of equal hash, see `C108_collision_fails`. -/
theorem C108_cache_partial {A K V : Type} [DecidableEq K] (hash : A → K) (reaction : A → V) (calls : List A) (a : A) :
    (run hash reaction calls).length ≤ 250 ∧ ((∀ b, hash b = hash a → b = a) → (step hash reaction (run hash reaction calls) a).2 = reaction a) := by
  obtain ⟨h1, h2⟩ := run_inv hash reaction calls
  refine ⟨h1, fun h => ?_⟩
  unfold step
  rcases hl : (run hash reaction calls).lookup (hash a) with _ | v
  · rfl
  · obtain ⟨b, hb⟩ := h2 _ (lookup_mem _ _ _ hl)
    have e1 : hash a = hash b := congrArg Prod.fst hb
    have e2 : v = reaction b := congrArg Prod.snd hb
    dsimp only
    rw [e2, h b e1.symm]

/-- The premise is met by numbers as their own hashes, after calls that fill the cache. -/
example : (step id (fun n : ℕ => n + 1) (run id (fun n : ℕ => n + 1) [3, 5, 3]) 5).2 = 6 ∧ run id (fun n : ℕ => n + 1) [3, 5, 3] = [(3, 4), (5, 6)] := by decide

/-- **C108 fails.** The key of the cache is only the hash: for every hash function with finitely many values there are two compounds, of different reactions, such that after a
call for one the other gets the reaction of the first. -/
theorem C108_collision_fails {A K V : Type} [Infinite A] [Finite K] [DecidableEq K] (hash : A → K) (reaction : A → V) (hr : Function.Injective reaction) :
    ∃ a b, a ≠ b ∧ (step hash reaction (run hash reaction [a]) b).2 ≠ reaction b := by
  obtain ⟨a, b, hab, h⟩ := Finite.exists_ne_map_eq_of_infinite hash
  refine ⟨a, b, hab, ?_⟩
  have e : run hash reaction [a] = [(hash a, reaction a)] := by
    simp [run, step, maxCache]
  rw [e]
  unfold step
  rw [List.lookup_cons, show (hash b == hash a) = true by simp [h]]
  exact fun hh => hab (hr hh)

example : ∃ (hash : ℕ → Fin 2), hash 0 = hash 2 := ⟨fun n => if n % 2 = 0 then 0 else 1, rfl⟩

/-- **C108 fails.** Without the cache the function always fails. -/
theorem C108_uncached_fails {V : Type} : (uncached : Option V) = none := rfl

/-! ### Absolute entropies (33-94) -/

/-- What `standard_entropy` is given; transitions of the solid as entropies `dS`, or as enthalpies `dH` with temperatures `Tt`. -/
structure Path where
  (Tm Tb Hfus Hvap : ℝ) (Sfus Svap : Option ℝ) (dS : Option (List ℝ)) (dH : Option (List (ℝ × ℝ))) (c : Cps)

open Classical in
/-- Lines 48-54. -/
noncomputable def crystal (p : Path) (Tref : ℝ) (gas : Bool) : ℝ :=
  (match p.dS with | some l => l.sum | none => 0)
  + match p.dH with
    | some l => (l.map fun q => if q.2 < Tref ∨ gas = true then q.1 / q.2 else 0).sum
    | none => 0

/-- Entropy of fusion (64-67). -/
noncomputable def Path.fus (p : Path) : ℝ := p.Sfus.getD (p.Hfus / p.Tm)

/-- Entropy of vaporization (82-85). -/
noncomputable def Path.vap (p : Path) : ℝ := p.Svap.getD (p.Hvap / p.Tb)

open Classical in
/-- `standard_entropy` (48-94); `gas` is `force_gas`. -/
noncomputable def absolute (p : Path) (Tlow Tref : ℝ) (gas : Bool) : ℝ :=
  crystal p Tref gas + J p.c.s Tlow p.Tm
  + (if gas = true ∨ p.Tm < Tref then p.fus else 0)
  + (if gas = true ∨ p.Tm < Tref then J p.c.l p.Tm (if gas = false ∧ p.Tb > Tref then Tref else p.Tb) else 0)
  + (if gas = true ∨ p.Tb < Tref then p.vap + J p.c.g p.Tb Tref else 0)

/-- **C108, partial.** The absolute entropy is that of the solid up to melting, of fusion, of the liquid and so on: of the gas if it is asked for or stable, of the
liquid if it is stable. The derivative by the temperature is the heat capacity of that phase over it. Missing: solids, see `C108_absolute_fails`. -/
theorem C108_absolute_partial (p : Path) (hS : p.Sfus = none ∧ p.Svap = none ∧ p.dS = none ∧ p.dH = none) (Tlow T : ℝ) (hc : p.c.Cont) (h0 : 0 < p.Tm) (h1 : p.Tm < p.Tb)
    (hT : 0 < T) :
    (absolute p Tlow T true = (∫ t in Tlow..p.Tm, p.c.s t / t) + p.Hfus / p.Tm + (∫ t in p.Tm..p.Tb, p.c.l t / t) + p.Hvap / p.Tb + ∫ t in p.Tb..T, p.c.g t / t)
    ∧ (p.Tb < T → absolute p Tlow T false = absolute p Tlow T true)
    ∧ (p.Tm < T → T ≤ p.Tb → absolute p Tlow T false = (∫ t in Tlow..p.Tm, p.c.s t / t) + p.Hfus / p.Tm + ∫ t in p.Tm..T, p.c.l t / t)
    ∧ HasDerivAt (fun x => absolute p Tlow x true) (p.c.g T / T) T
    ∧ (p.Tm < T → T < p.Tb → HasDerivAt (fun x => absolute p Tlow x false) (p.c.l T / T) T) := by
  obtain ⟨s1, s2, s3, s4⟩ := hS
  have hcr : ∀ x g, crystal p x g = 0 := by intro x g; simp [crystal, s3, s4]
  have hf : p.fus = p.Hfus / p.Tm := by simp [Path.fus, s1]
  have hv : p.vap = p.Hvap / p.Tb := by simp [Path.vap, s2]
  have hg : ∀ x, absolute p Tlow x true = J p.c.s Tlow p.Tm + p.Hfus / p.Tm + J p.c.l p.Tm p.Tb + p.Hvap / p.Tb + J p.c.g p.Tb x := by
    intro x
    unfold absolute
    rw [hcr, if_pos (Or.inl rfl), if_pos (Or.inl rfl), if_pos (Or.inl rfl), if_neg (by simp), hf, hv]
    ring
  have hl : ∀ x, p.Tm < x → x ≤ p.Tb → absolute p Tlow x false = J p.c.s Tlow p.Tm + p.Hfus / p.Tm + J p.c.l p.Tm x := by
    intro x h2 h3
    unfold absolute
    rw [hcr, if_pos (Or.inr h2), if_pos (Or.inr h2), if_neg (show ¬ (false = true ∨ p.Tb < x) by simp [h3]), hf]
    rcases eq_or_lt_of_le h3 with h4 | h4
    · subst h4; simp
    · rw [if_pos ⟨rfl, h4⟩]; ring
  refine ⟨hg T, fun h2 => ?_, hl T, ?_, fun h2 h3 => ?_⟩
  · rw [hg]
    unfold absolute
    rw [hcr, if_pos (Or.inr (h1.trans h2)), if_pos (Or.inr (h1.trans h2)), if_pos (Or.inr h2), if_neg (by simp [h2.le]), hf, hv]
    ring
  · rw [funext hg]
    exact (J_deriv hc.g (h0.trans h1) hT).const_add _
  · refine ((J_deriv hc.l h0 hT).const_add (J p.c.s Tlow p.Tm + p.Hfus / p.Tm)).congr_of_eventuallyEq ?_
    filter_upwards [Ioo_mem_nhds h2 h3] with x hx using hl x hx.1 hx.2.le

/-- Water, about. -/
noncomputable def water : Path := ⟨273.15, 373.15, 6010, 40660, none, none, none, none, ⟨fun t => t / 8, fun _ => 75, fun _ => 34⟩⟩

example : water.c.Cont ∧ 0 < water.Tm ∧ water.Tm < water.Tb ∧ water.Sfus = none := by
  refine ⟨⟨(continuous_id.div_const 8).continuousOn, continuousOn_const, continuousOn_const⟩, ?_, ?_, rfl⟩ <;> norm_num [water]

/-- **C108 fails.** The entropy of a substance that is solid at the reference temperature is that at its melting point, whatever the reference temperature: the integral of the
solid goes up to the melting point. It is too large wherever the heat capacity is positive. -/
theorem C108_absolute_fails (p : Path) (hS : p.dS = none ∧ p.dH = none) (Tlow T : ℝ) (hc : p.c.Cont) (h1 : p.Tm < p.Tb) (hT : T < p.Tm) (hl : 0 < Tlow) (hTl : Tlow ≤ T)
    (hp : ∀ x ∈ Icc T p.Tm, 0 < p.c.s x) :
    absolute p Tlow T false = (∫ t in Tlow..p.Tm, p.c.s t / t) ∧ (∫ t in Tlow..T, p.c.s t / t) < absolute p Tlow T false := by
  have h0 : 0 < T := hl.trans_le hTl
  have e : absolute p Tlow T false = J p.c.s Tlow p.Tm := by
    unfold absolute
    rw [if_neg (by simp [hT.le]), if_neg (by simp [hT.le]), if_neg (by simp [(hT.trans h1).le])]
    simp [crystal, hS.1, hS.2]
  refine ⟨e, ?_⟩
  rw [e, ← J_add hc.s hl h0 (h0.trans hT)]
  have : 0 < J p.c.s T p.Tm := by
    refine intervalIntegral_pos_of_pos_on (ii_of (over hc.s) h0 (h0.trans hT)) (fun x hx => ?_) hT
    exact div_pos (hp x ⟨hx.1.le, hx.2.le⟩) (h0.trans hx.1)
  unfold J at this ⊢
  linarith

example : (1 : ℝ) ≤ 250 ∧ 250 < water.Tm ∧ ∀ x ∈ Icc 250 water.Tm, 0 < water.c.s x :=
  ⟨by norm_num, by norm_num [water], fun x hx => by have := hx.1; simp only [water]; linarith⟩

/-- **C108 fails.** A transition of the solid given by entropy and by enthalpy with temperature is counted twice; one given by entropy is counted also if it is above the
reference temperature. -/
theorem C108_crystal_fails (p : Path) (s t Tref : ℝ) (ht : 0 < t) (h : t < Tref) :
    crystal { p with dS := some [s], dH := some [(s * t, t)] } Tref false = 2 * s
    ∧ (∀ t', crystal { p with dS := none, dH := some [(s * t', t')] } Tref false = if t' < Tref then s * t' / t' else 0)
    ∧ crystal { p with dS := some [s], dH := none } Tref false = s := by
  refine ⟨?_, fun t' => ?_, ?_⟩
  · simp only [crystal, List.sum_cons, List.sum_nil, List.map_cons, List.map_nil, h, true_or, if_true]
    field_simp; ring
  · simp [crystal]
  · simp [crystal]

/-- Arguments that may be missing: `chem` says whether a chemical is given. Lines 38-45: each missing one of the four is taken from the chemical; without one that is an
`AttributeError`, `none`. -/
def resolve (chem : Option (ℝ × ℝ × ℝ × ℝ)) (Tm Tb Hfus Hvap : Option ℝ) : Option (ℝ × ℝ × ℝ × ℝ) := do
  let Tm ← Tm.orElse fun _ => chem.map (·.1)
  let Tb ← Tb.orElse fun _ => chem.map (·.2.1)
  let Hfus ← Hfus.orElse fun _ => chem.map (·.2.2.1)
  let Hvap ← Hvap.orElse fun _ => chem.map (·.2.2.2)
  return (Tm, Tb, Hfus, Hvap)

/-- **C108.** Given values take precedence over those of the chemical. Refuted is that entropies of transition make the enthalpies unnecessary: without them, and without a
chemical, the function fails. -/
theorem C108_arguments_fails (c : ℝ × ℝ × ℝ × ℝ) (Tm Tb Hfus Hvap : ℝ) :
    (∀ chem, resolve chem (some Tm) (some Tb) (some Hfus) (some Hvap) = some (Tm, Tb, Hfus, Hvap)) ∧ resolve (some c) none none none none = some c
    ∧ resolve none (some Tm) (some Tb) none (some Hvap) = none ∧ resolve none (some Tm) (some Tb) (some Hfus) none = none :=
  ⟨fun _ => rfl, rfl, rfl, rfl⟩

/-! ### Conversion between liquid and gas (97-147) -/

/-- What is read of the chemical. -/
structure Sub where
  (Tb Hvap : ℝ) (c : Cps)

/-- `S0_basis_converter` (136-147); `none` is the `ValueError`. -/
noncomputable def convert (a : Sub) (liq gas : Option ℝ) (Tref : ℝ) : Option ℝ :=
  match liq, gas with
  | none, none => none
  | none, some g => some (g + (J a.c.g Tref a.Tb - a.Hvap / a.Tb + J a.c.l a.Tb Tref))
  | some l, _ => some (l + (J a.c.l Tref a.Tb + a.Hvap / a.Tb + J a.c.g a.Tb Tref))

/-- **C108.** Conversions to gas and back to liquid, or the other way, give the value started from; the absolute entropy of the gas is converted from that of the liquid; without
either value the conversion fails; a value for the gas is ignored if there is one for the liquid. -/
theorem C108_converter (a : Sub) (Tref s : ℝ) :
    (convert a (some s) none Tref).bind (fun g => convert a none (some g) Tref) = some s
    ∧ (convert a none (some s) Tref).bind (fun l => convert a (some l) none Tref) = some s
    ∧ convert a none none Tref = none ∧ (∀ g, convert a (some s) (some g) Tref = convert a (some s) none Tref)
    ∧ ∀ (p : Path) (Tlow : ℝ), p.c = a.c → p.Tb = a.Tb → p.Hvap = a.Hvap → p.Svap = none → p.dS = none → p.dH = none → p.c.Cont → 0 < p.Tm → p.Tm < Tref → Tref < p.Tb →
      convert a (some (absolute p Tlow Tref false)) none Tref = some (absolute p Tlow Tref true) := by
  have e : ∀ c : ℝ → ℝ, ∀ x y, J c x y = -J c y x := fun c x y => integral_symm _ _
  refine ⟨?_, ?_, rfl, fun g => rfl, ?_⟩
  · simp only [convert, Option.bind_some, Option.some.injEq]
    rw [e a.c.l Tref a.Tb, e a.c.g Tref a.Tb]; ring
  · simp only [convert, Option.bind_some, Option.some.injEq]
    rw [e a.c.l Tref a.Tb, e a.c.g Tref a.Tb]; ring
  · intro p Tlow h1 h2 h3 h4 h5 h6 hc h7 h8 h9
    simp only [convert, Option.some.injEq]
    unfold absolute
    rw [if_pos (Or.inr h8), if_pos (Or.inr h8), if_neg (show ¬ (false = true ∨ p.Tb < Tref) by simp [h9.le]), if_pos (show false = false ∧ p.Tb > Tref from ⟨rfl, h9⟩), if_pos (Or.inl rfl), if_pos (Or.inl rfl), if_pos (Or.inl rfl), if_neg (by simp)]
    have := J_add hc.l h7 (h7.trans h8) ((h7.trans h8).trans h9)
    rw [← h1, ← h2, ← h3]
    simp only [crystal, h5, h6, Path.vap, h4, Option.getD_none]
    linarith

/-! ### Use by `Chemical` (chemical.py 1253-1299) and phases (phase.py 4051-4091) -/

/-- Phase at standard conditions. -/
inductive Stp
  | s | l | g
  deriving DecidableEq

/-- Attributes read and written; `Hfmg` is the attribute written in 1272. -/
structure Attrs where
  (Hfm Hfgm S0m S0gm Hfmg : Option ℝ)

/-- Lines 1253-1275 of chemical.py; `Hf_basis_converter` of `chemicals` adds or subtracts the enthalpy of vaporization. -/
noncomputable def adjustH (ph : Stp) (hvap : Option ℝ) (a : Attrs) : Attrs :=
  match a.Hfm, a.Hfgm with
  | none, some g =>
    match ph, hvap with
    | .l, some v => { a with Hfm := some (g - v) }
    | .g, _ => { a with Hfm := some g }
    | _, _ => a
  | some f, none =>
    match ph, hvap with
    | .l, some v => { a with Hfmg := some (f + v) }
    | .g, _ => { a with Hfmg := some f }
    | _, _ => a
  | _, _ => a

/-- Lines 1277-1298 of chemical.py. -/
noncomputable def adjustS (ph : Stp) (b : Sub) (a : Attrs) : Attrs :=
  match a.S0m, a.S0gm with
  | none, some g =>
    match ph with
    | .l => { a with S0m := convert b none (some g) 298.15 }
    | .g => { a with S0m := some g }
    | .s => a
  | some s, none =>
    match ph with
    | .l => { a with S0gm := convert b (some s) none 298.15 }
    | .g => { a with S0gm := some s }
    | .s => a
  | _, _ => a

/-- **C108.** A missing enthalpy of formation of the stable phase is found from that of the gas, and a missing entropy of either from the other; values known are kept. -/
theorem C108_adjust (ph : Stp) (b : Sub) (v : ℝ) (a : Attrs) :
    (∀ f, a.Hfm = some f → (adjustH ph (some v) a).Hfm = some f) ∧ (∀ g, a.Hfgm = some g → (adjustH ph (some v) a).Hfgm = some g)
    ∧ (∀ g, a.Hfm = none → a.Hfgm = some g → (adjustH .l (some v) a).Hfm = some (g - v) ∧ (adjustH .g (some v) a).Hfm = some g ∧ adjustH .s (some v) a = a)
    ∧ (ph ≠ .s → (a.S0m ≠ none ∨ a.S0gm ≠ none) → (adjustS ph b a).S0m ≠ none ∧ (adjustS ph b a).S0gm ≠ none)
    ∧ (∀ s, a.S0m = some s → (adjustS ph b a).S0m = some s) ∧ (∀ s, a.S0gm = some s → (adjustS ph b a).S0gm = some s)
    ∧ (∀ g, a.S0m = none → a.S0gm = some g → (adjustS .g b a).S0m = some g
      ∧ (adjustS .l b a).S0m = some (g + ((∫ t in (298.15 : ℝ)..b.Tb, b.c.g t / t) - b.Hvap / b.Tb + ∫ t in b.Tb..(298.15 : ℝ), b.c.l t / t)))
    ∧ (∀ s, a.S0gm = none → a.S0m = some s → (adjustS .g b a).S0gm = some s
      ∧ (adjustS .l b a).S0gm = some (s + ((∫ t in (298.15 : ℝ)..b.Tb, b.c.l t / t) + b.Hvap / b.Tb + ∫ t in b.Tb..(298.15 : ℝ), b.c.g t / t))) := by
  obtain ⟨f, g, s, t, m⟩ := a
  refine ⟨?_, ?_, ?_, ?_, ?_, ?_, ?_, ?_⟩
  · rintro x rfl; rcases g with _ | g <;> rcases ph with _ | _ | _ <;> rfl
  · rintro x rfl; rcases f with _ | f <;> rcases ph with _ | _ | _ <;> rfl
  · rintro x rfl rfl; exact ⟨rfl, rfl, rfl⟩
  · intro hp h
    rcases s with _ | s <;> rcases t with _ | t <;> rcases ph with _ | _ | _ <;> simp_all [adjustS, convert]
  · rintro x rfl; rcases t with _ | t <;> rcases ph with _ | _ | _ <;> rfl
  · rintro x rfl; rcases s with _ | s <;> rcases ph with _ | _ | _ <;> rfl
  · rintro x rfl rfl; exact ⟨rfl, rfl⟩
  · rintro x rfl rfl; exact ⟨rfl, rfl⟩

example : (⟨none, some (-241822), none, some 188, none⟩ : Attrs).Hfm = none ∧ (⟨none, some (-241822), none, some 188, none⟩ : Attrs).Hfgm = some (-241822) := ⟨rfl, rfl⟩

/-- **C108 fails.** A missing enthalpy of formation of the gas is never found: it is stored under another name. -/
theorem C108_adjust_fails (ph : Stp) (hvap : Option ℝ) (a : Attrs) (h : a.Hfgm = none) : (adjustH ph hvap a).Hfgm = none := by
  obtain ⟨f, g, s, t, m⟩ := a
  subst h
  rcases f with _ | f <;> rcases ph with _ | _ | _ <;> rcases hvap with _ | v <;> rfl

example : (adjustH .l (some 44000) ⟨some (-285830), none, none, none, none⟩).Hfmg = some (-285830 + 44000) := rfl

/-- **C108.** Mole fraction averages over the components (phase.py 4080-4082) keep the relation between Gibbs energy, enthalpy and entropy, and its derivative. -/
theorem C108_mixture {N : ℕ} (z : Fin N → ℝ) (a : Fin N → Compound) (h : ∀ i, (a i).Ok) {Tref T : ℝ} (hr : 0 < Tref) (hT : 0 < T)
    (hc : ∀ i, ∀ e ∈ (a i).elems, T ∉ e.kind.changes) :
    ∑ i, z i * (a i).G Tref T = ∑ i, z i * (a i).H Tref T - T * ∑ i, z i * (a i).S Tref T
    ∧ HasDerivAt (fun x => ∑ i, z i * (a i).G Tref x) (-∑ i, z i * (a i).S Tref T) T
    ∧ HasDerivAt (fun x => ∑ i, z i * (a i).H Tref x) (∑ i, z i * (a i).dCp T) T := by
  refine ⟨?_, ?_, ?_⟩
  · rw [Finset.mul_sum, ← Finset.sum_sub_distrib]
    exact Finset.sum_congr rfl fun i _ => by rw [G_eq]; ring
  · refine (HasDerivAt.fun_sum fun i _ => (((C108_gibbs (a i) (h i) hr hT).2.2 (hc i)).1.const_mul (z i))).congr_deriv ?_
    rw [← Finset.sum_neg_distrib]
    exact Finset.sum_congr rfl fun i _ => by ring
  · exact HasDerivAt.fun_sum fun i _ => (C108_kirchhoff (a i) (h i) hr hT (hc i)).1.const_mul (z i)

end Verif.Formation
