import Mathlib.Tactic
import Mathlib.Analysis.Calculus.Deriv.Pow
import Mathlib.Analysis.Calculus.Deriv.Mul
import Mathlib.Analysis.Calculus.Deriv.Add
import Mathlib.Analysis.SpecialFunctions.Log.Basic
import Mathlib.Topology.Order.IntermediateValue

/-!
# Derivatives, transforms and inversion of a property (`thermo/utils/t_dependent_property.py`)

* `valid_methods` (2561-2592), `_calculate_extrapolate` (3043-3065), `T_dependent_property` (3067-3115);
* `extrapolate` (4556-4653), `extrapolate_derivative` (4656-4747), `extrapolate_transform` (3140-3233), `extrapolate_integral` (4749-4811), `extrapolate_integral_over_T` (4813-4875): which side
  they work on and what they return there;
* `T_dependent_property_derivative` (4085-4138), `T_dependent_property_transform` (3235-3273), `solve_property` (3812-3859).

The forms themselves and their coefficients are in `TDep/Extrapolate.lean`; here `curve` is the extrapolation on a side with its coefficients, `dcurve` its derivatives in closed form.
Simplified: real numbers; one selected method with limits; `None` and exceptions are values; the numerical `derivative`, `quad` and `brenth` of `fluids` are parameters.
-/

namespace Verif.Derivatives

/-! ### The code -/

/-- Names of extrapolations. -/
inductive Form
  | linear | logLinear | arrhenius | constant | nolimit | antoineAB | dippr101 | dippr106AB | dippr106ABC | watson | lnTau2 | lnTau3
  deriving DecidableEq

/-- `in_range`. -/
inductive InRange
  | error | low | high | nearest
  deriving DecidableEq

/-- A number, `None` or an exception. -/
inductive Res
  | val (x : ℝ)
  | none
  | raised

/-- The side on which `extrapolate` (4579-4604) and `extrapolate_transform` (3142-3167) work: `true` is below, `none` an exception. -/
noncomputable def side (lo hi T : ℝ) (r : InRange) : Option Bool :=
  if T < 0 then none
  else if T ≤ lo then some true
  else if hi ≤ T then some false
  else match r with
    | .low => some true
    | .high => some false
    | .nearest => if |T - lo| < |hi - T| then some true else some false
    | .error => none

/-- The side on which `extrapolate_derivative` (4680-4695) works. -/
noncomputable def sideD (lo hi T : ℝ) (r : InRange) : Option Bool :=
  if T < 0 then none
  else if T < lo then some true
  else if hi ≤ T then some false
  else match r with
    | .low => some true
    | .high => some false
    | _ => none

/-- The side on which `extrapolate_integral` (4773-4789) and `extrapolate_integral_over_T` (4837-4853) work. -/
noncomputable def sideI (lo hi T1 T2 : ℝ) (r : InRange) : Option Bool :=
  if T1 < 0 then none
  else if T2 ≤ lo then some true
  else if hi ≤ T1 then some false
  else match r with
    | .low => some true
    | .high => some false
    | _ => none

/-- Is there a derivative of this order in closed form (4696-4742)? -/
def closed : Form → ℕ → Bool
  | .linear, n => decide (1 ≤ n)
  | .arrhenius, n => n == 1 || n == 2 || n == 3
  | .dippr101, n | .dippr106AB, n | .dippr106ABC, n => decide (n ≤ 3)
  | .antoineAB, n | .lnTau2, n | .lnTau3, n => n == 1 || n == 2
  | _, _ => false

/-- A property with its method. -/
structure Obj where
  /-- limits of the method -/
  lo : ℝ
  /-- limits of the method -/
  hi : ℝ
  /-- `calculate`; `none` is an exception -/
  f : ℝ → Option ℝ
  /-- `calculate_derivative` -/
  df : ℕ → ℝ → Option ℝ
  /-- `_extrapolation_low`, `_extrapolation_high` -/
  ext : Option (Form × Form)
  /-- extrapolation on a side -/
  curve : Bool → ℝ → ℝ
  /-- derivatives of the extrapolation in closed form -/
  dcurve : Bool → ℕ → ℝ → ℝ
  /-- numerical derivative of a function, with its order, at a point -/
  num : (ℝ → Option ℝ) → ℕ → ℝ → Option ℝ
  /-- `extrapolation_min` -/
  emin : Option ℝ
  /-- `extrapolation_max` -/
  emax : Option ℝ
  /-- `test_property_validity` -/
  plausible : ℝ → Prop
  /-- `RAISE_PROPERTY_CALCULATION_ERROR` -/
  strict : Bool

/-- The form used on a side. -/
def Obj.form (o : Obj) (low : Bool) : Option Form := o.ext.map fun e => if low then e.1 else e.2

/-- The clamp (4649-4652). -/
noncomputable def Obj.clamp (o : Obj) (v : ℝ) : ℝ :=
  match o.emin, o.emax with
  | some a, some b => if v < a then a else if v > b then b else v
  | some a, none => if v < a then a else v
  | none, some b => if v > b then b else v
  | none, none => v

/-- `extrapolate` (4556-4653). -/
noncomputable def Obj.extrapolate (o : Obj) (T : ℝ) (r : InRange) : Option ℝ :=
  match side o.lo o.hi T r with
  | none => none
  | some low =>
    match o.form low with
    | none => none
    | some .nolimit => (o.f T).map o.clamp
    | some _ => some (o.clamp (o.curve low T))

/-- `extrapolate_derivative` (4656-4747). -/
noncomputable def Obj.extrapolateDerivative (o : Obj) (T : ℝ) (order : ℕ) (r : InRange) : Option ℝ :=
  match sideD o.lo o.hi T r with
  | none => none
  | some low =>
    match o.form low with
    | some .constant => some 0
    | some .nolimit => o.df order T
    | some fm => if closed fm order then some (o.dcurve low order T) else o.num (fun t => o.extrapolate t .nearest) order T
    | none => o.num (fun t => o.extrapolate t .nearest) order T

/-- A failure: `None`, or an exception if strict. -/
def Obj.giveUp (o : Obj) : Res := if o.strict then .raised else .none

open Classical in
/-- `T_dependent_property` (3088-3115). -/
noncomputable def Obj.property (o : Obj) (T : ℝ) : Res :=
  if o.lo ≤ T ∧ T ≤ o.hi then
    match o.f T with
    | some v => if o.plausible v then .val v else o.giveUp
    | none => o.giveUp
  else if o.ext.isSome then
    match o.extrapolate T .error with
    | some v => .val v
    | none => o.giveUp
  else o.giveUp

open Classical in
/-- `_calculate_extrapolate` (3043-3065), used for plots. -/
noncomputable def Obj.plotted (o : Obj) (T : ℝ) : Option ℝ :=
  if o.lo ≤ T ∧ T ≤ o.hi then
    match o.f T with
    | some v => if o.plausible v then some v else none
    | none => none
  else if o.ext.isSome then o.extrapolate T .error
  else none

open Classical in
/-- `T_dependent_property_derivative` (4107-4130). -/
noncomputable def Obj.derivative (o : Obj) (T : ℝ) (order : ℕ) : Res :=
  if o.lo ≤ T ∧ T ≤ o.hi then
    match o.df order T with
    | some d => .val d
    | none => .raised
  else if o.ext.isSome then
    match o.extrapolateDerivative T order .error with
    | some d => .val d
    | none => o.giveUp
  else o.giveUp

/-- Transforms. -/
inductive Tr
  | log | logD | logD2 | ratio | ratio2
  deriving DecidableEq

/-- Logarithm as in Python: an exception unless positive. -/
noncomputable def plog (x : ℝ) : Option ℝ := if 0 < x then some (Real.log x) else none

/-- `extrapolate_transform` (3140-3233): for Antoine and DIPPR101 forms from the coefficients (`cl`, see `C13_antoine_transforms`, `C13_dippr101_transforms`), else from the extrapolation. -/
noncomputable def Obj.extrapolateTransform (o : Obj) (cl : Bool → Tr → ℝ → ℝ) (T : ℝ) (t : Tr) (r : InRange) : Option ℝ :=
  match side o.lo o.hi T r with
  | none => none
  | some low =>
    if o.form low = some .antoineAB ∨ o.form low = some .dippr101 then some (cl low t T)
    else match t with
      | .log => (o.extrapolate T .error).bind plog
      | .logD => o.num (fun s => (o.extrapolate s .error).bind plog) 1 T
      | .logD2 => o.num (fun s => (o.extrapolate s .error).bind plog) 2 T
      | .ratio => (o.extrapolate T .error).bind fun v => (o.extrapolateDerivative T 1 .error).bind fun d => if v = 0 then none else some (d / v)
      | .ratio2 => (o.extrapolate T .error).bind fun v => (o.extrapolateDerivative T 2 .error).bind fun d => if v = 0 then none else some (d / v)

/-- `extrapolate_integral` (4790-4811): `quad` evaluates the extrapolation with the default `in_range`. -/
noncomputable def Obj.extrapolateIntegral (o : Obj) (quad : (ℝ → Option ℝ) → ℝ → ℝ → Option ℝ) (closedForm : Bool → ℝ → ℝ → ℝ) (T1 T2 : ℝ) (r : InRange) : Option ℝ :=
  match sideI o.lo o.hi T1 T2 r with
  | none => none
  | some low =>
    if o.form low = some .constant ∨ o.form low = some .linear then some (closedForm low T1 T2)
    else quad (fun t => o.extrapolate t .error) T1 T2

/-- `solve_property` without extrapolation (3830-3841): `brenth` with the error at a temperature; `none` is an exception. -/
def solveInside (valid : Bool) (brenth : (ℝ → ℝ) → ℝ → ℝ → Option ℝ) (prop : ℝ → ℝ) (lo hi goal : ℝ) : Option ℝ :=
  if valid then brenth (fun T => prop T - goal) lo hi else none

/-- `solve_property` with extrapolation: the two points the secant solver starts from (3843-3858). -/
noncomputable def start (prop : ℝ → ℝ) (lo hi goal : ℝ) (high : Option ℝ) : ℝ × ℝ :=
  let f0 := prop lo - goal
  let f1 := prop hi - goal
  if 0 < f0 * f1 then
    if |f0| < |f1| then (lo, lo - (hi - lo) * (1 / 1000))
    else
      let x0 := hi + (hi - lo) * (1 / 1000)
      match high with
      | some h => if h < x0 then (h * (1 - 1 / 1000000), hi) else (x0, hi)
      | none => (x0, hi)
  else (lo, hi)

/-- `valid_methods` (2582-2592). -/
def validMethods (ranked all : List String) (current : Option String) (ok : Option (String → Bool)) : List String :=
  let sorted := ranked.filter (· ∈ all)
  let sorted := match current with
    | some m => if m ∈ sorted then m :: sorted.erase m else sorted
    | none => sorted
  match ok with
  | some p => sorted.filter p
  | none => sorted

/-! ### Sides -/

/-- **C132.** Outside the range values, derivatives, integrals and transforms work on the same side, whatever `in_range`: below for temperatures under the lower limit, above over the upper. -/
theorem C132_sides (lo hi T : ℝ) (r : InRange) (h0 : 0 ≤ T) (h : lo ≤ hi) :
    (T < lo → side lo hi T r = some true ∧ sideD lo hi T r = some true ∧ ∀ T1, 0 ≤ T1 → T1 ≤ T → sideI lo hi T1 T r = some true) ∧
    (hi < T → side lo hi T r = some false ∧ sideD lo hi T r = some false ∧ ∀ T2, T ≤ T2 → sideI lo hi T T2 r = some false) := by
  have hn : ¬T < 0 := not_lt.mpr h0
  constructor
  · intro hT
    refine ⟨by simp [side, hn, hT.le], by simp [sideD, hn, hT], fun T1 h1 _ => by simp [sideI, not_lt.mpr h1, hT.le]⟩
  · intro hT
    have h1 : ¬T ≤ lo := not_le.mpr (lt_of_le_of_lt h hT)
    refine ⟨by simp [side, hn, h1, hT.le], by simp [sideD, hn, not_lt.mpr (not_le.mp h1).le, hT.le], fun T2 h2 => ?_⟩
    have h3 : ¬T2 ≤ lo := not_le.mpr (lt_of_lt_of_le (not_le.mp h1) h2)
    simp [sideI, hn, h3, hT.le]

example : side 300 400 200 .error = some true ∧ sideD 300 400 500 .nearest = some false :=
  ⟨((C132_sides 300 400 200 .error (by norm_num) (by norm_num)).1 (by norm_num)).1, ((C132_sides 300 400 500 .nearest (by norm_num) (by norm_num)).2 (by norm_num)).2.1⟩

/-- **C132.** The negation of "the derivative of the extrapolation is there wherever the extrapolation is": at the lower limit, and inside the range with `nearest`, the value is extrapolated and the
derivative raises. -/
theorem C132_sides_fails (lo hi : ℝ) (h0 : 0 ≤ lo) (h : lo < hi) :
    side lo hi lo .error = some true ∧ sideD lo hi lo .error = none ∧
    ∀ T, lo < T → T < hi → (side lo hi T .nearest).isSome ∧ sideD lo hi T .nearest = none := by
  have hn : ¬lo < 0 := not_lt.mpr h0
  refine ⟨by simp [side, hn], by simp [sideD, hn, not_le.mpr h], fun T h1 h2 => ?_⟩
  have hT : ¬T < 0 := not_lt.mpr (h0.trans h1.le)
  refine ⟨?_, by simp [sideD, hT, not_lt.mpr h1.le, not_le.mpr h2]⟩
  simp only [side, hT, if_false, not_le.mpr h1, not_le.mpr h2]
  split_ifs <;> rfl

example : side 300 400 300 .error = some true ∧ sideD 300 400 300 .error = none :=
  ⟨(C132_sides_fails 300 400 (by norm_num) (by norm_num)).1, (C132_sides_fails 300 400 (by norm_num) (by norm_num)).2.1⟩

/-! ### Derivative -/

theorem glue {F g k : ℝ → ℝ} {d c : ℝ} (hg : HasDerivAt g d c) (hk : HasDerivAt k d c) (hv : g c = k c)
    (hl : ∀ᶠ t in nhds c, t < c → F t = g t) (hr : ∀ᶠ t in nhds c, c ≤ t → F t = k t) : HasDerivAt F d c := by
  have hc : F c = k c := hr.self_of_nhds le_rfl
  rw [← hasDerivWithinAt_univ, ← Set.Iic_union_Ici (a := c)]
  refine HasDerivWithinAt.union ?_ ?_
  · refine (hg.hasDerivWithinAt (s := Set.Iic c)).congr_of_eventuallyEq ?_ (hc.trans hv.symm)
    filter_upwards [nhdsWithin_le_nhds hl, self_mem_nhdsWithin] with t ht hm
    rcases lt_or_eq_of_le (Set.mem_Iic.mp hm) with h | h
    · exact ht h
    · rw [h, hc, hv]
  · refine (hk.hasDerivWithinAt (s := Set.Ici c)).congr_of_eventuallyEq ?_ hc
    filter_upwards [nhdsWithin_le_nhds hr, self_mem_nhdsWithin] with t ht hm
    exact ht hm

/-- The number in a result. -/
def Res.get : Res → ℝ
  | .val x => x
  | _ => 0

/-- A method with derivative on its range and extrapolations in closed form joining it with value and slope on both sides. -/
structure Smooth (o : Obj) (g dg : ℝ → ℝ) : Prop where
  lt : o.lo < o.hi
  pos : 0 < o.lo
  value : ∀ T, o.lo ≤ T → T ≤ o.hi → o.f T = some (g T) ∧ o.plausible (g T)
  deriv : ∀ T, o.lo ≤ T → T ≤ o.hi → o.df 1 T = some (dg T) ∧ HasDerivAt g (dg T) T
  clampFree : o.emin = none ∧ o.emax = none
  forms : ∃ e, o.ext = some e ∧ closed e.1 1 = true ∧ closed e.2 1 = true
  low : ∀ T, 0 < T → T ≤ o.lo → HasDerivAt (o.curve true) (o.dcurve true 1 T) T
  high : ∀ T, o.hi ≤ T → HasDerivAt (o.curve false) (o.dcurve false 1 T) T
  joinLow : o.curve true o.lo = g o.lo ∧ o.dcurve true 1 o.lo = dg o.lo
  joinHigh : o.curve false o.hi = g o.hi ∧ o.dcurve false 1 o.hi = dg o.hi

theorem closed_ne {f : Form} {n : ℕ} (h : closed f n = true) : f ≠ .constant ∧ f ≠ .nolimit := by
  constructor <;> rintro rfl <;> simp [closed] at h

theorem property_mid {o : Obj} {g dg} (s : Smooth o g dg) {T : ℝ} (h1 : o.lo ≤ T) (h2 : T ≤ o.hi) : o.property T = .val (g T) := by
  unfold Obj.property
  rw [if_pos ⟨h1, h2⟩, (s.value T h1 h2).1]
  simp only
  rw [if_pos (s.value T h1 h2).2]

theorem extrapolate_side {o : Obj} {T : ℝ} {r : InRange} {low : Bool} {fm : Form} (hs : side o.lo o.hi T r = some low) (hf : o.form low = some fm) (hn : fm ≠ .nolimit)
    (hc : o.emin = none ∧ o.emax = none) : o.extrapolate T r = some (o.curve low T) := by
  have e : ∀ v, o.clamp v = v := fun v => by simp [Obj.clamp, hc.1, hc.2]
  unfold Obj.extrapolate
  rw [hs]
  simp only
  rw [hf]
  split
  · simp_all
  · simp_all
  · rw [e]

theorem property_low {o : Obj} {g dg} (s : Smooth o g dg) {T : ℝ} (h0 : 0 ≤ T) (h : T < o.lo) : o.property T = .val (o.curve true T) := by
  obtain ⟨e, he, h1, h2⟩ := s.forms
  unfold Obj.property
  rw [if_neg (fun hh => absurd hh.1 (not_le.mpr h)), if_pos (by rw [he]; rfl)]
  rw [extrapolate_side (fm := e.1) ((C132_sides o.lo o.hi T .error h0 s.lt.le).1 h).1 (by simp [Obj.form, he]) (closed_ne h1).2 s.clampFree]

theorem property_high {o : Obj} {g dg} (s : Smooth o g dg) {T : ℝ} (h : o.hi < T) : o.property T = .val (o.curve false T) := by
  obtain ⟨e, he, h1, h2⟩ := s.forms
  unfold Obj.property
  rw [if_neg (fun hh => absurd hh.2 (not_le.mpr h)), if_pos (by rw [he]; rfl)]
  rw [extrapolate_side (fm := e.2) ((C132_sides o.lo o.hi T .error ((s.pos.le.trans s.lt.le).trans h.le) s.lt.le).2 h).1 (by simp [Obj.form, he]) (closed_ne h2).2 s.clampFree]

theorem extrapolateDerivative_side {o : Obj} {T : ℝ} {r : InRange} {low : Bool} {fm : Form} {n : ℕ} (hs : sideD o.lo o.hi T r = some low) (hf : o.form low = some fm)
    (hc : closed fm n = true) : o.extrapolateDerivative T n r = some (o.dcurve low n T) := by
  have := closed_ne hc
  unfold Obj.extrapolateDerivative
  rw [hs]
  simp only
  rw [hf]
  split
  · simp_all
  · simp_all
  · simp_all
  · simp_all

/-- **C132** (partial). If the extrapolations join the method with value and slope, `T_dependent_property_derivative` is the derivative of `T_dependent_property` at every temperature, the limits
included. Missing: extrapolations that only join in value, `C132_derivative_fails`, and forms whose derivative is numerical. -/
theorem C132_derivative_partial {o : Obj} {g dg : ℝ → ℝ} (s : Smooth o g dg) (T : ℝ) (hT : 0 < T) :
    ∃ d, o.derivative T 1 = .val d ∧ HasDerivAt (fun t => (o.property t).get) d T := by
  obtain ⟨e, he, h1, h2⟩ := s.forms
  have hs : o.ext.isSome = true := by rw [he]; rfl
  by_cases ha : T < o.lo
  · refine ⟨o.dcurve true 1 T, ?_, ?_⟩
    · unfold Obj.derivative
      rw [if_neg (fun hh => absurd hh.1 (not_le.mpr ha)), if_pos hs,
        extrapolateDerivative_side (fm := e.1) ((C132_sides o.lo o.hi T .error hT.le s.lt.le).1 ha).2.1 (by simp [Obj.form, he]) h1]
    · refine (s.low T hT ha.le).congr_of_eventuallyEq ?_
      filter_upwards [lt_mem_nhds hT, gt_mem_nhds ha] with t h0 h1
      rw [property_low s h0.le h1]
      rfl
  · rw [not_lt] at ha
    by_cases hb : o.hi < T
    · refine ⟨o.dcurve false 1 T, ?_, ?_⟩
      · unfold Obj.derivative
        rw [if_neg (fun hh => absurd hh.2 (not_le.mpr hb)), if_pos hs,
          extrapolateDerivative_side (fm := e.2) ((C132_sides o.lo o.hi T .error hT.le s.lt.le).2 hb).2.1 (by simp [Obj.form, he]) h2]
      · refine (s.high T hb.le).congr_of_eventuallyEq ?_
        filter_upwards [lt_mem_nhds hb] with t h0
        rw [property_high s h0]
        rfl
    · rw [not_lt] at hb
      have hd : o.derivative T 1 = .val (dg T) := by
        unfold Obj.derivative
        rw [if_pos ⟨ha, hb⟩, (s.deriv T ha hb).1]
      refine ⟨dg T, hd, ?_⟩
      have hg := (s.deriv T ha hb).2
      rcases ha.eq_or_lt with hl | hl
      · have hk := s.low T hT hl.ge
        have ej : o.dcurve true 1 T = dg T := by rw [← hl]; exact s.joinLow.2
        rw [ej] at hk
        refine glue hk hg (by rw [← hl]; exact s.joinLow.1) ?_ ?_
        · filter_upwards [lt_mem_nhds hT] with t h0 ht
          rw [property_low s h0.le (hl ▸ ht)]
          rfl
        · have : T < o.hi := hl ▸ s.lt
          filter_upwards [gt_mem_nhds this] with t h0 ht
          rw [property_mid s (hl ▸ ht) h0.le]
          rfl
      · rcases hb.eq_or_lt with hr | hr
        · have hk := s.high T hr.ge
          have ej : o.dcurve false 1 T = dg T := by rw [hr]; exact s.joinHigh.2
          rw [ej] at hk
          have ev : o.curve false T = g T := by rw [hr]; exact s.joinHigh.1
          refine glue hg hk ev.symm ?_ ?_
          · filter_upwards [lt_mem_nhds hl] with t h0 ht
            rw [property_mid s h0.le (hr ▸ ht.le)]
            rfl
          · refine Filter.Eventually.of_forall fun t ht => ?_
            rcases ht.eq_or_lt with h | h
            · rw [← h, property_mid s ha hb, ev]
              rfl
            · rw [property_high s (hr ▸ h)]
              rfl
        · refine hg.congr_of_eventuallyEq ?_
          filter_upwards [lt_mem_nhds hl, gt_mem_nhds hr] with t h1 h2
          rw [property_mid s h1.le h2.le]
          rfl

/-- The square between 1 and 2, with the given extrapolations. -/
noncomputable def square (fm : Form) (strict : Bool) : Obj where
  lo := 1
  hi := 2
  f := fun T => some (T ^ 2)
  df := fun n T => if n = 1 then some (2 * T) else if n = 2 then some 2 else none
  ext := some (fm, fm)
  curve := fun low T => if fm = .constant then (if low then 1 else 4) else (if low then 1 + 2 * (T - 1) else 4 + 4 * (T - 2))
  dcurve := fun low _ _ => if low then 2 else 4
  num := fun F n T => if n = 0 then F T else none
  emin := none
  emax := none
  plausible := fun v => 0 ≤ v
  strict := strict

theorem line (a b c T : ℝ) : HasDerivAt (fun t => a + b * (t - c)) b T := by
  have h1 : HasDerivAt (fun t : ℝ => t - c) 1 T := HasDerivAt.sub_const c (hasDerivAt_id' T)
  have h2 : HasDerivAt (fun t : ℝ => b * (t - c)) (b * 1) T := h1.const_mul b
  exact (HasDerivAt.const_add a h2).congr_deriv (mul_one b)

theorem square_smooth : Smooth (square .linear false) (fun T => T ^ 2) (fun T => 2 * T) where
  lt := by norm_num [square]
  pos := by norm_num [square]
  value := fun T _ _ => ⟨rfl, sq_nonneg T⟩
  deriv := fun T _ _ => ⟨by simp [square], by simpa using hasDerivAt_pow 2 T⟩
  clampFree := ⟨rfl, rfl⟩
  forms := ⟨(.linear, .linear), rfl, rfl, rfl⟩
  low := fun T _ _ => by
    simpa [square] using line 1 2 1 T
  high := fun T _ => by
    simpa [square] using line 4 4 2 T
  joinLow := by simp [square]
  joinHigh := by simp [square]; norm_num

example : ∃ d, (square .linear false).derivative 1 1 = .val d ∧ HasDerivAt (fun t => ((square .linear false).property t).get) d 1 :=
  C132_derivative_partial square_smooth 1 one_pos

/-- **C132.** The negation of "the derivative is that of the property everywhere": with a constant extrapolation the property has a kink at the lower limit; the code gives the slope of the method. -/
theorem C132_derivative_fails : ∃ (o : Obj) (T d : ℝ), o.derivative T 1 = .val d ∧ ¬ HasDerivAt (fun t => (o.property t).get) d T := by
  refine ⟨square .constant false, 1, 2, ?_, ?_⟩
  · unfold Obj.derivative
    rw [if_pos (by norm_num [square])]
    simp [square]
  · intro h
    have h1 : HasDerivWithinAt (fun t => ((square .constant false).property t).get) 2 (Set.Iic 1) 1 := h.hasDerivWithinAt
    have h2 : HasDerivWithinAt (fun t => ((square .constant false).property t).get) 0 (Set.Iic 1) 1 := by
      refine (hasDerivWithinAt_const (1 : ℝ) (Set.Iic 1) (1 : ℝ)).congr_of_eventuallyEq ?_ ?_
      · filter_upwards [nhdsWithin_le_nhds (lt_mem_nhds (show (0 : ℝ) < 1 by norm_num)), self_mem_nhdsWithin] with t h0 hm
        have hm : t ≤ 1 := hm
        rcases hm.eq_or_lt with h | h
        · subst h; simp [Obj.property, square, Res.get]
        · have e : ¬((square .constant false).lo ≤ t ∧ t ≤ (square .constant false).hi) := fun hh => absurd hh.1 (not_le.mpr (by simpa [square] using h))
          have hs : side (square .constant false).lo (square .constant false).hi t .error = some true := by
            simp [side, square, not_lt.mpr h0.le, h.le]
          unfold Obj.property
          rw [if_neg e, if_pos (by rfl)]
          unfold Obj.extrapolate
          rw [hs]
          simp [Obj.form, square, Obj.clamp, Res.get]
      · simp [Obj.property, square, Res.get]
    have := (uniqueDiffWithinAt_Iic (1 : ℝ)).eq_deriv _ h1 h2
    norm_num at this

/-- **C132.** The negation of "a failing calculation gives `None` unless strict": the derivative inside the range raises whatever the setting, while the property gives `None`. -/
theorem C132_failure_fails (o : Obj) (T : ℝ) (n : ℕ) (h : o.lo ≤ T ∧ T ≤ o.hi) (hf : o.f T = none) (hd : o.df n T = none) (hs : o.strict = false) :
    o.property T = .none ∧ o.derivative T n = .raised := by
  constructor
  · unfold Obj.property
    rw [if_pos h, hf]
    simp [Obj.giveUp, hs]
  · unfold Obj.derivative
    rw [if_pos h, hd]

example : (square .linear false).derivative 1 7 = .raised := by
  unfold Obj.derivative
  rw [if_pos (by norm_num [square])]
  simp [square]

/-- **C132.** Outside the range a failing derivative gives `None`, or an exception if strict; without extrapolation it always does. -/
theorem C132_outside (o : Obj) (T : ℝ) (n : ℕ) (h : ¬(o.lo ≤ T ∧ T ≤ o.hi)) :
    (o.ext = none → o.derivative T n = if o.strict then .raised else .none) ∧
    (o.extrapolateDerivative T n .error = none → o.derivative T n = if o.strict then .raised else .none) ∧
    (∀ d, o.ext.isSome → o.extrapolateDerivative T n .error = some d → o.derivative T n = .val d) := by
  refine ⟨fun he => ?_, fun he => ?_, fun d hs hd => ?_⟩
  · unfold Obj.derivative
    rw [if_neg h, he]
    simp [Obj.giveUp]
  · unfold Obj.derivative
    rw [if_neg h, he]
    split_ifs <;> simp_all [Obj.giveUp]
  · unfold Obj.derivative
    rw [if_neg h, if_pos hs, hd]

example : (square .linear false).derivative 0 1 = .val 2 := by
  refine (C132_outside _ 0 1 (by norm_num [square])).2.2 2 rfl ?_
  rw [extrapolateDerivative_side (low := true) (fm := .linear) (by norm_num [sideD, square]) rfl rfl]
  simp [square]

/-- **C132.** What plots show is the property with `None` for failures. -/
theorem C132_plotted (o : Obj) (T x : ℝ) : o.plotted T = some x ↔ o.property T = .val x := by
  unfold Obj.plotted Obj.property Obj.giveUp
  split_ifs <;> (try split) <;> (try split_ifs) <;> simp_all

/-! ### Numerical derivatives and `in_range` -/

/-- **C132.** The negation of "with `in_range='low'` the low extrapolation is used": for a form without closed derivative the value differentiated numerically is that of the side nearer, so for
temperatures closer to the upper limit the high extrapolation; and the integral and transform of such forms raise. -/
theorem C132_inrange_fails (o : Obj) (T : ℝ) (n : ℕ) (fm : Form) (he : o.ext = some (fm, fm)) (hfm : fm = .watson ∨ fm = .logLinear) (hc : o.emin = none ∧ o.emax = none)
    (h0 : 0 ≤ T) (h1 : o.lo < T) (h2 : T < o.hi) (hn : |o.hi - T| ≤ |T - o.lo|) (cl : Bool → Tr → ℝ → ℝ) :
    o.extrapolateDerivative T n .low = o.num (fun t => o.extrapolate t .nearest) n T ∧ o.extrapolate T .nearest = some (o.curve false T) ∧
    o.extrapolate T .low = some (o.curve true T) ∧ o.extrapolateTransform cl T .log .low = none := by
  have hT : ¬T < 0 := not_lt.mpr h0
  have hl : ¬T ≤ o.lo := not_le.mpr h1
  have hh : ¬o.hi ≤ T := not_le.mpr h2
  have hnl : fm ≠ .nolimit := by rcases hfm with rfl | rfl <;> simp
  have hf : ∀ low, o.form low = some fm := fun low => by simp [Obj.form, he]
  refine ⟨?_, ?_, ?_, ?_⟩
  · unfold Obj.extrapolateDerivative
    have : sideD o.lo o.hi T .low = some true := by simp [sideD, hT, not_lt.mpr h1.le, hh]
    rw [this]
    simp only
    rw [hf]
    rcases hfm with rfl | rfl <;> simp [closed]
  · exact extrapolate_side (by simp [side, hT, hl, hh, not_lt.mpr hn]) (hf false) hnl hc
  · exact extrapolate_side (by simp [side, hT, hl, hh]) (hf true) hnl hc
  · have hs : side o.lo o.hi T .low = some true := by simp [side, hT, hl, hh]
    have hx : side o.lo o.hi T .error = none := by simp [side, hT, hl, hh]
    have hx' : o.extrapolate T .error = none := by unfold Obj.extrapolate; rw [hx]
    unfold Obj.extrapolateTransform
    rw [hs]
    simp only
    rw [hf, hx']
    rcases hfm with rfl | rfl <;> simp

example : (square .watson false).extrapolate 1.75 .nearest = some ((square .watson false).curve false 1.75) :=
  (C132_inrange_fails (square .watson false) 1.75 1 .watson rfl (Or.inl rfl) ⟨rfl, rfl⟩ (by norm_num) (by norm_num [square]) (by norm_num [square])
    (by norm_num [square, abs_le, abs_of_nonneg]) fun _ _ _ => 0).2.1

/-- **C132.** With the clamp off, outside the range the logarithmic transform is the logarithm of the property and the ratio is the derivative over it, for each form. -/
theorem C132_transform (o : Obj) (cl : Bool → Tr → ℝ → ℝ) (T : ℝ) (low : Bool) (fm : Form) (n1 : closed fm 1 = true) (he : o.form low = some fm) (hc : o.emin = none ∧ o.emax = none)
    (hs : side o.lo o.hi T .error = some low) (hd : sideD o.lo o.hi T .error = some low) (hpos : 0 < o.curve low T)
    (hcl : fm = .antoineAB ∨ fm = .dippr101 → cl low .log T = Real.log (o.curve low T) ∧ cl low .ratio T = o.dcurve low 1 T / o.curve low T) :
    o.extrapolateTransform cl T .log .error = some (Real.log (o.curve low T)) ∧
    o.extrapolateTransform cl T .ratio .error = some (o.dcurve low 1 T / o.curve low T) := by
  have hx := extrapolate_side hs he (closed_ne n1).2 hc
  have hy := extrapolateDerivative_side hd he n1
  unfold Obj.extrapolateTransform
  rw [hs]
  simp only
  rw [he, hx, hy]
  by_cases hfm : fm = .antoineAB ∨ fm = .dippr101
  · have : (some fm = some Form.antoineAB ∨ some fm = some Form.dippr101) := by simpa using hfm
    rw [if_pos this, if_pos this, (hcl hfm).1, (hcl hfm).2]
    exact ⟨rfl, rfl⟩
  · have : ¬(some fm = some Form.antoineAB ∨ some fm = some Form.dippr101) := by simpa using hfm
    rw [if_neg this, if_neg this]
    simp [plog, hpos, hpos.ne']

example : (square .linear false).extrapolateTransform (fun _ _ _ => 0) (3 / 4) .ratio .error = some (2 / (1 / 2)) := by
  have := (C132_transform (square .linear false) (fun _ _ _ => 0) (3 / 4) true .linear rfl rfl ⟨rfl, rfl⟩ (by norm_num [side, square]) (by norm_num [sideD, square])
    (by simp [square]; norm_num) (by simp)).2
  rw [this]
  simp [square]
  norm_num

/-- **C132.** The negation of "the transform is that of the property": the clamp enters the logarithm of a linear extrapolation but not of an Antoine extrapolation; and at the lower limit the ratio of a
linear extrapolation raises while its logarithm does not. -/
theorem C132_transform_fails (fm : Form) (hfm : fm = .linear ∨ fm = .antoineAB) :
    ∃ (o : Obj) (cl : Bool → Tr → ℝ → ℝ), o.form true = some fm ∧ cl true .log (3 / 4) = Real.log (o.curve true (3 / 4)) ∧ o.property (3 / 4) = .val 1 ∧
      (fm = .linear → o.extrapolateTransform cl (3 / 4) .log .error = some 0) ∧ (fm = .antoineAB → o.extrapolateTransform cl (3 / 4) .log .error ≠ some 0) ∧
      (fm = .linear → o.extrapolateTransform cl 1 .log .error ≠ none ∧ o.extrapolateTransform cl 1 .ratio .error = none) := by
  have hs : side 1 2 (3 / 4) .error = some true := by norm_num [side]
  have hs1 : side 1 2 1 .error = some true := by norm_num [side]
  have hd1 : sideD 1 2 1 .error = none := by norm_num [sideD]
  have hform : ∀ low, ({square fm false with emin := some 1} : Obj).form low = some fm := fun low => by simp [Obj.form, square]
  have hne : fm ≠ .nolimit ∧ fm ≠ .constant := by rcases hfm with rfl | rfl <;> simp
  have hx : ({square fm false with emin := some 1} : Obj).extrapolate (3 / 4) .error = some 1 := by
    unfold Obj.extrapolate
    have : side ({square fm false with emin := some 1} : Obj).lo ({square fm false with emin := some 1} : Obj).hi (3 / 4) .error = some true := hs
    rw [this]
    simp only
    rw [hform]
    rcases hfm with rfl | rfl <;> simp [Obj.clamp, square] <;> norm_num
  have hx1 : ({square fm false with emin := some 1} : Obj).extrapolate 1 .error = some 1 := by
    unfold Obj.extrapolate
    have : side ({square fm false with emin := some 1} : Obj).lo ({square fm false with emin := some 1} : Obj).hi 1 .error = some true := hs1
    rw [this]
    simp only
    rw [hform]
    rcases hfm with rfl | rfl <;> norm_num [Obj.clamp, square]
  refine ⟨{square fm false with emin := some 1}, fun _ _ T => Real.log (1 + 2 * (T - 1)), hform true, ?_, ?_, ?_, ?_, ?_⟩
  · rcases hfm with rfl | rfl <;> simp [square]
  · unfold Obj.property
    rw [if_neg (by norm_num [square]), if_pos (by rfl), hx]
  · rintro rfl
    unfold Obj.extrapolateTransform
    have : side ({square .linear false with emin := some 1} : Obj).lo ({square .linear false with emin := some 1} : Obj).hi (3 / 4) .error = some true := hs
    rw [this]
    simp only
    rw [hform, hx]
    simp [plog]
  · rintro rfl
    unfold Obj.extrapolateTransform
    have : side ({square .antoineAB false with emin := some 1} : Obj).lo ({square .antoineAB false with emin := some 1} : Obj).hi (3 / 4) .error = some true := hs
    rw [this]
    simp only
    rw [hform]
    simp only [true_or, if_true, ne_eq, Option.some.injEq, Real.log_eq_zero]
    norm_num
  · rintro rfl
    have : side ({square .linear false with emin := some 1} : Obj).lo ({square .linear false with emin := some 1} : Obj).hi 1 .error = some true := hs1
    have hd : ({square .linear false with emin := some 1} : Obj).extrapolateDerivative 1 1 .error = none := by
      unfold Obj.extrapolateDerivative
      have : sideD ({square .linear false with emin := some 1} : Obj).lo ({square .linear false with emin := some 1} : Obj).hi 1 .error = none := hd1
      rw [this]
    unfold Obj.extrapolateTransform
    rw [this]
    simp only
    rw [hform, hx1, hd]
    simp [plog]

/-- **C132.** The integral of a form that is neither constant nor linear, inside the range with `in_range='low'`, evaluates an extrapolation that raises at each point. -/
theorem C132_integral_fails (o : Obj) (quad : (ℝ → Option ℝ) → ℝ → ℝ → Option ℝ) (k : Bool → ℝ → ℝ → ℝ) (T1 T2 : ℝ) (fm : Form) (he : o.ext = some (fm, fm))
    (hfm : fm ≠ .constant ∧ fm ≠ .linear) (h0 : 0 ≤ o.lo) (h1 : o.lo < T1) (h2 : T2 < o.hi) (h12 : T1 ≤ T2) :
    ∃ F : ℝ → Option ℝ, o.extrapolateIntegral quad k T1 T2 .low = quad F T1 T2 ∧ ∀ t, T1 ≤ t → t ≤ T2 → F t = none := by
  refine ⟨fun t => o.extrapolate t .error, ?_, fun t ha hb => ?_⟩
  · have : sideI o.lo o.hi T1 T2 .low = some true := by
      simp [sideI, not_lt.mpr (h0.trans h1.le), not_le.mpr (lt_of_lt_of_le h1 h12), not_le.mpr (lt_of_le_of_lt h12 h2)]
    unfold Obj.extrapolateIntegral
    rw [this]
    simp only
    rw [if_neg]
    simp [Obj.form, he, hfm.1, hfm.2]
  · have : side o.lo o.hi t .error = none := by
      simp [side, not_lt.mpr (h0.trans (h1.le.trans ha)), not_le.mpr (lt_of_lt_of_le h1 ha), not_le.mpr (lt_of_le_of_lt hb h2)]
    show o.extrapolate t .error = none
    unfold Obj.extrapolate
    rw [this]

example : ∃ F : ℝ → Option ℝ, (square .watson false).extrapolateIntegral (fun F a _ => F a) (fun _ _ _ => 0) 1.25 1.5 .low = F 1.25 ∧ ∀ t, 1.25 ≤ t → t ≤ 1.5 → F t = none :=
  C132_integral_fails (square .watson false) (fun F a _ => F a) _ 1.25 1.5 .watson rfl (by simp) (by norm_num [square]) (by norm_num [square]) (by norm_num [square]) (by norm_num)

/-! ### Inversion -/

/-- **C132.** `solve_property` without extrapolation: with a bracketing solver (a root between the ends for continuous functions if the signs differ, else perhaps an exception) the temperature found has
the property asked for and lies within the limits; if the value lies between those at the limits it is found. -/
theorem C132_solve (brenth : (ℝ → ℝ) → ℝ → ℝ → Option ℝ) (prop : ℝ → ℝ) (lo hi goal : ℝ) (hl : lo ≤ hi) (hp : ContinuousOn prop (Set.Icc lo hi))
    (hsound : ∀ F a b x, brenth F a b = some x → F x = 0 ∧ a ≤ x ∧ x ≤ b)
    (hcomplete : ∀ F a b, a ≤ b → ContinuousOn F (Set.Icc a b) → F a * F b ≤ 0 → brenth F a b ≠ none) :
    (∀ v T, solveInside v brenth prop lo hi goal = some T → prop T = goal ∧ lo ≤ T ∧ T ≤ hi) ∧
    ((prop lo - goal) * (prop hi - goal) ≤ 0 → solveInside true brenth prop lo hi goal ≠ none) ∧ solveInside false brenth prop lo hi goal = none := by
  refine ⟨fun v T h => ?_, fun h => ?_, rfl⟩
  · cases v
    · simp [solveInside] at h
    · have := hsound _ _ _ _ h
      exact ⟨by linarith [this.1], this.2⟩
  · exact hcomplete _ _ _ hl (hp.sub continuousOn_const) h

open Classical in
/-- A solver that meets the contract: some root between the ends if there is one. -/
noncomputable def anyRoot (F : ℝ → ℝ) (a b : ℝ) : Option ℝ := if h : ∃ x, F x = 0 ∧ a ≤ x ∧ x ≤ b then some h.choose else none

example : ∃ T, solveInside true anyRoot (fun T => T ^ 2) 1 3 4 = some T ∧ T ^ 2 = 4 := by
  have h := C132_solve anyRoot (fun T => T ^ 2) 1 3 4 (by norm_num) (by fun_prop) ?_ ?_
  · obtain ⟨T, hT⟩ := Option.ne_none_iff_exists'.mp (h.2.1 (by norm_num))
    exact ⟨T, hT, (h.1 _ _ hT).1⟩
  · intro F a b x hx
    unfold anyRoot at hx
    split_ifs at hx with h
    cases hx
    exact h.choose_spec
  · intro F a b hab hc hs
    unfold anyRoot
    have : ∃ x, F x = 0 ∧ a ≤ x ∧ x ≤ b := by
      rcases mul_nonpos_iff.mp hs with ⟨h1, h2⟩ | ⟨h1, h2⟩
      · obtain ⟨x, hx, he⟩ := intermediate_value_Icc' hab hc ⟨h2, h1⟩
        exact ⟨x, he, hx.1, hx.2⟩
      · obtain ⟨x, hx, he⟩ := intermediate_value_Icc hab hc ⟨h1, h2⟩
        exact ⟨x, he, hx.1, hx.2⟩
    rw [dif_pos this]
    simp

/-- **C132.** `solve_property` with extrapolation: the search starts from the range if the value lies between those at the limits, else beside the limit whose value is nearer. -/
theorem C132_start (prop : ℝ → ℝ) (lo hi goal : ℝ) (high : Option ℝ) (h : lo < hi) (hh : ∀ t, high = some t → hi < t * (1 - 1 / 1000000)) :
    ((prop lo - goal) * (prop hi - goal) ≤ 0 → start prop lo hi goal high = (lo, hi)) ∧
    (0 < (prop lo - goal) * (prop hi - goal) → |prop lo - goal| < |prop hi - goal| → (start prop lo hi goal high).1 = lo ∧ (start prop lo hi goal high).2 < lo) ∧
    (0 < (prop lo - goal) * (prop hi - goal) → |prop hi - goal| ≤ |prop lo - goal| →
      (start prop lo hi goal high).2 = hi ∧ hi < (start prop lo hi goal high).1 ∧ ∀ t, high = some t → 0 < t → (start prop lo hi goal high).1 ≤ t) := by
  refine ⟨fun h1 => ?_, fun h1 h2 => ?_, fun h1 h2 => ?_⟩
  · unfold start
    simp only
    rw [if_neg (not_lt.mpr h1)]
  · unfold start
    simp only
    rw [if_pos h1, if_pos h2]
    exact ⟨rfl, by simp only; linarith⟩
  · unfold start
    simp only
    rw [if_pos h1, if_neg (not_lt.mpr h2)]
    rcases high with _ | t
    · simp; linarith
    · simp only
      split_ifs with h3
      · refine ⟨rfl, hh t rfl, fun t' e ht => ?_⟩
        cases e
        simp only; linarith
      · refine ⟨rfl, by simp only; linarith, fun t' e ht => ?_⟩
        cases e
        exact not_lt.mp h3

example : start (fun T => T) 300 400 500 (some 600) = (400 + 100 * (1 / 1000), 400) := by
  unfold start
  norm_num [abs_of_nonpos]

/-- **C132.** The negation of "the search starts at temperatures where the property exists": for a wide range near zero the second point is negative, where the extrapolation raises. -/
theorem C132_start_fails : ∃ (prop : ℝ → ℝ) (lo hi goal : ℝ), 0 < lo ∧ lo < hi ∧ (start prop lo hi goal none).2 < 0 ∧
    ∀ r, side lo hi (start prop lo hi goal none).2 r = none := by
  have e : start (fun T => T) 1 2001 (1 / 2) none = (1, -1) := by
    unfold start
    norm_num [abs_of_nonneg]
  exact ⟨fun T => T, 1, 2001, 1 / 2, by norm_num, by norm_num, by rw [e]; norm_num, fun r => by rw [e]; norm_num [side]⟩

/-! ### Methods -/

/-- **C132.** `valid_methods`: exactly the ranked methods that are available (and valid at the temperature); the selected one comes first if it is ranked, available and valid. -/
theorem C132_valid_partial (ranked all : List String) (current : Option String) (ok : Option (String → Bool)) :
    (∀ m, m ∈ validMethods ranked all current ok ↔ m ∈ ranked ∧ m ∈ all ∧ ∀ p, ok = some p → p m = true) ∧
    ∀ m, current = some m → m ∈ ranked → m ∈ all → (∀ p, ok = some p → p m = true) → (validMethods ranked all current ok).head? = some m := by
  have key : ∀ m, (m ∈ (match current with
      | some m => if m ∈ ranked.filter (· ∈ all) then m :: (ranked.filter (· ∈ all)).erase m else ranked.filter (· ∈ all)
      | none => ranked.filter (· ∈ all))) ↔ m ∈ ranked ∧ m ∈ all := by
    intro m
    have e : m ∈ ranked.filter (· ∈ all) ↔ m ∈ ranked ∧ m ∈ all := by simp
    rcases current with _ | c
    · exact e
    · simp only
      split_ifs with h
      · rw [← e]
        by_cases hm : m = c
        · subst hm; simp [h]
        · rw [List.mem_cons, List.mem_erase_of_ne hm]
          simp [hm]
      · exact e
  constructor
  · intro m
    unfold validMethods
    rcases ok with _ | p
    · simp only
      rw [key]
      simp
    · simp only
      rw [List.mem_filter, key]
      simp [and_assoc]
  · rintro m rfl h1 h2 h3
    have : m ∈ ranked.filter (· ∈ all) := by simp [h1, h2]
    unfold validMethods
    simp only
    rw [if_pos this]
    rcases ok with _ | p
    · rfl
    · simp only
      rw [List.filter_cons_of_pos (h3 p rfl)]
      rfl

example : (validMethods ["A", "B", "C"] ["B", "C"] (some "C") none).head? = some "C" :=
  (C132_valid_partial ["A", "B", "C"] ["B", "C"] (some "C") none).2 "C" rfl (by simp) (by simp) (by simp)

/-- **C132.** The negation of "the selected method comes first": a method added by the user is not in the ranking, so even selected and available it is not listed at all. -/
theorem C132_valid_fails : ∃ (ranked all : List String) (m : String), m ∈ all ∧ m ∉ validMethods ranked all (some m) none := by
  refine ⟨["A", "B"], ["A", "B", "user data"], "user data", by simp, ?_⟩
  rw [(C132_valid_partial _ _ _ _).1]
  simp

end Verif.Derivatives
