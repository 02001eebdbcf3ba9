import Mathlib.MeasureTheory.Integral.IntervalIntegral.Basic
import Mathlib.Analysis.SpecialFunctions.Integrals.Basic
import Mathlib.Tactic.Linarith

/-!
# Property integrals (`thermo/utils/t_dependent_property.py` 4140-4300, 4302-4464)

* C14: `T_dependent_property_integral` is additive and antisymmetric; it is the integral of the property
  over the temperature range, across the limits of the method.
* C52: `calculate_integral` of a piecewise method is the integral of its `calculate`.

The integrand is a parameter, so the same theorems cover the integral of the property (4211-4300) and
the integral over temperature (4376-4464), whose control flow is the same statement by statement.
-/

namespace Verif.Integrals

open MeasureTheory intervalIntegral Set

/-- Outcome of a call. -/
inductive Res
  | val (v : ℝ)
  | none
  | raised
  deriving Inhabited

/-- What the method reads. `calc a b` and `ext a b` are `calculate_integral` and `extrapolate_integral`
of the selected method, `none` meaning that they raise. `raiseErr` is
`RAISE_PROPERTY_CALCULATION_ERROR`. -/
structure Cfg where
  limits : Option (ℝ × ℝ)
  extrapolation : Bool
  raiseErr : Bool
  calcI : ℝ → ℝ → Option ℝ
  extI : ℝ → ℝ → Option ℝ

/-- The outcome of a failure: `RuntimeError` or `None` (4251-4257, 4258-4264, ...). -/
def Cfg.fail (c : Cfg) : Res := if c.raiseErr then .raised else .none

/-- `integral += self.calculate_integral(T1, T2, method)` and `return integral` (4290-4300). -/
def Cfg.finish (c : Cfg) (integral T1 T2 : ℝ) : Res :=
  match c.calcI T1 T2 with
  | some v => .val (integral + v)
  | none => c.fail

open Classical in
/-- The part for `T2 > Tmax` (4266-4289). -/
noncomputable def Cfg.high (c : Cfg) (Tmax integral T1 T2 : ℝ) : Res :=
  if T2 > Tmax then
    if c.extrapolation then
      if T1 ≤ Tmax then
        match c.extI Tmax T2 with
        | some v => c.finish (integral + v) T1 Tmax
        | none => c.fail
      else
        match c.extI T1 T2 with
        | some v => .val v
        | none => c.fail
    else c.fail
  else c.finish integral T1 T2

open Classical in
/-- The body of `T_dependent_property_integral` for `T1 ≤ T2` (4236-4300). -/
noncomputable def Cfg.forward (c : Cfg) (T1 T2 : ℝ) : Res :=
  match c.limits with
  | none => c.finish 0 T1 T2
  | some (Tmin, Tmax) =>
    if T1 < Tmin then
      if c.extrapolation then
        if T2 ≥ Tmin then
          match c.extI T1 Tmin with
          | some v => c.high Tmax (0 + v) Tmin T2
          | none => c.fail
        else
          match c.extI T1 T2 with
          | some v => .val v
          | none => c.fail
      else c.fail
    else c.high Tmax 0 T1 T2

open Classical in
/-- `T_dependent_property_integral(T1, T2)` (4211-4300). Negating `None` raises `TypeError` (4235). -/
noncomputable def Cfg.integral (c : Cfg) (T1 T2 : ℝ) : Res :=
  if T2 < T1 then
    match c.forward T2 T1 with
    | .val v => .val (-v)
    | .none => .raised
    | .raised => .raised
  else c.forward T1 T2

/-! ## Specification -/

open Classical in
/-- The integrand as a function of temperature: the method between the limits, the extrapolations
outside. -/
noncomputable def prop (Tmin Tmax : ℝ) (fl f fh : ℝ → ℝ) (T : ℝ) : ℝ :=
  if T < Tmin then fl T else if T ≤ Tmax then f T else fh T

/-- The pieces are the integrals of the functions they stand for, at temperatures not below `lo`, where
the method and the extrapolations are defined (`lo = 0` for the integral, any `lo > 0` for the integral
over temperature, whose integrand is not integrable at zero). -/
structure Exact (c : Cfg) (lo Tmin Tmax : ℝ) (fl f fh : ℝ → ℝ) : Prop where
  lim : c.limits = some (Tmin, Tmax)
  le : Tmin ≤ Tmax
  ext : c.extrapolation = true
  calcI : ∀ a b, lo ≤ a → Tmin ≤ a → a ≤ b → b ≤ Tmax → c.calcI a b = some (∫ T in a..b, f T)
  low : ∀ a b, lo ≤ a → a ≤ b → b ≤ Tmin → c.extI a b = some (∫ T in a..b, fl T)
  high : ∀ a b, lo ≤ a → Tmax ≤ a → a ≤ b → c.extI a b = some (∫ T in a..b, fh T)
  int_low : ∀ a b, lo ≤ a → lo ≤ b → IntervalIntegrable fl volume a b
  int : ∀ a b, lo ≤ a → lo ≤ b → IntervalIntegrable f volume a b
  int_high : ∀ a b, lo ≤ a → lo ≤ b → IntervalIntegrable fh volume a b

theorem prop_low {Tmin Tmax fl f fh} {a b : ℝ} (hab : a ≤ b) (hb : b ≤ Tmin) :
    ∫ T in a..b, prop Tmin Tmax fl f fh T = ∫ T in a..b, fl T := by
  apply integral_congr_Ioo_of_le hab
  intro T hT
  unfold prop
  rw [if_pos (lt_of_lt_of_le hT.2 hb)]

theorem prop_mid {Tmin Tmax fl f fh} {a b : ℝ} (hab : a ≤ b) (ha : Tmin ≤ a) (hb : b ≤ Tmax) :
    ∫ T in a..b, prop Tmin Tmax fl f fh T = ∫ T in a..b, f T := by
  apply integral_congr_Ioo_of_le hab
  intro T hT
  unfold prop
  rw [if_neg (by linarith [hT.1]), if_pos (by linarith [hT.2])]

theorem prop_high {Tmin Tmax fl f fh} {a b : ℝ} (hab : a ≤ b) (hl : Tmin ≤ Tmax) (ha : Tmax ≤ a) :
    ∫ T in a..b, prop Tmin Tmax fl f fh T = ∫ T in a..b, fh T := by
  apply integral_congr_Ioo_of_le hab
  intro T hT
  unfold prop
  rw [if_neg (by linarith [hT.1]), if_neg (by linarith [hT.1])]

theorem prop_integrable {lo Tmin Tmax : ℝ} {fl f fh : ℝ → ℝ} (hl : Tmin ≤ Tmax)
    (h1 : ∀ a b, lo ≤ a → lo ≤ b → IntervalIntegrable fl volume a b)
    (h2 : ∀ a b, lo ≤ a → lo ≤ b → IntervalIntegrable f volume a b)
    (h3 : ∀ a b, lo ≤ a → lo ≤ b → IntervalIntegrable fh volume a b) (a b : ℝ) (ha : lo ≤ a)
    (hb : lo ≤ b) :
    IntervalIntegrable (prop Tmin Tmax fl f fh) volume a b := by
  have A : ∀ a b, lo ≤ a → a ≤ b → b ≤ Tmin →
      IntervalIntegrable (prop Tmin Tmax fl f fh) volume a b := by
    intro a b h0 hab hb
    refine (h1 a b h0 (h0.trans hab)).congr_uIoo ?_
    rw [uIoo_of_le hab]
    intro T hT
    unfold prop
    rw [if_pos (lt_of_lt_of_le hT.2 hb)]
  have B : ∀ a b, lo ≤ a → a ≤ b → Tmin ≤ a → b ≤ Tmax →
      IntervalIntegrable (prop Tmin Tmax fl f fh) volume a b := by
    intro a b h0 hab ha hb
    refine (h2 a b h0 (h0.trans hab)).congr_uIoo ?_
    rw [uIoo_of_le hab]
    intro T hT
    unfold prop
    rw [if_neg (by linarith [hT.1]), if_pos (by linarith [hT.2])]
  have C : ∀ a b, lo ≤ a → a ≤ b → Tmax ≤ a →
      IntervalIntegrable (prop Tmin Tmax fl f fh) volume a b := by
    intro a b h0 hab ha
    refine (h3 a b h0 (h0.trans hab)).congr_uIoo ?_
    rw [uIoo_of_le hab]
    intro T hT
    unfold prop
    rw [if_neg (by linarith [hT.1]), if_neg (by linarith [hT.1])]
  have D : ∀ a b, lo ≤ a → a ≤ b → Tmin ≤ a →
      IntervalIntegrable (prop Tmin Tmax fl f fh) volume a b := by
    intro a b h0 hab ha
    rcases le_total b Tmax with hb | hb
    · exact B a b h0 hab ha hb
    · rcases le_total a Tmax with h | h
      · exact (B a Tmax h0 h ha le_rfl).trans (C Tmax b (h0.trans h) hb le_rfl)
      · exact C a b h0 hab h
  have E : ∀ a b, lo ≤ a → a ≤ b → IntervalIntegrable (prop Tmin Tmax fl f fh) volume a b := by
    intro a b h0 hab
    rcases le_total b Tmin with hb | hb
    · exact A a b h0 hab hb
    · rcases le_total a Tmin with h | h
      · exact (A a Tmin h0 h le_rfl).trans (D Tmin b (h0.trans h) hb le_rfl)
      · exact D a b h0 hab h
  rcases le_total a b with hab | hab
  · exact E a b ha hab
  · exact (E b a hb hab).symm

theorem ii_of_le {p : ℝ → ℝ} (h : ∀ a b, a ≤ b → IntervalIntegrable p volume a b) (a b : ℝ) :
    IntervalIntegrable p volume a b := by
  rcases le_total a b with hab | hab
  · exact h a b hab
  · exact (h b a hab).symm

theorem high_eq {c : Cfg} {lo Tmin Tmax : ℝ} {fl f fh : ℝ → ℝ}
    (h : Exact c lo Tmin Tmax fl f fh) (i T1 T2 : ℝ)
    (h0 : lo ≤ T1) (h1 : Tmin ≤ T1) (h12 : T1 ≤ T2) :
    c.high Tmax i T1 T2 = .val (if T1 ≤ Tmax then i + ∫ T in T1..T2, prop Tmin Tmax fl f fh T
      else ∫ T in T1..T2, prop Tmin Tmax fl f fh T) := by
  have ii := prop_integrable (fl := fl) (f := f) (fh := fh) h.le h.int_low h.int h.int_high
  unfold Cfg.high
  by_cases hT2 : T2 > Tmax
  · rw [if_pos hT2, h.ext]
    simp only [if_true]
    by_cases hT1 : T1 ≤ Tmax
    · rw [if_pos hT1, if_pos hT1, h.high Tmax T2 (h0.trans hT1) le_rfl hT2.le]
      dsimp only
      unfold Cfg.finish
      rw [h.calcI T1 Tmax h0 h1 hT1 le_rfl]
      dsimp only
      rw [← integral_add_adjacent_intervals (ii T1 Tmax h0 (h0.trans hT1))
        (ii Tmax T2 (h0.trans hT1) (h0.trans h12)), prop_mid hT1 h1 le_rfl,
        prop_high hT2.le h.le le_rfl]
      congr 1
      ring
    · rw [if_neg hT1, if_neg hT1, h.high T1 T2 h0 (le_of_lt (not_le.1 hT1)) h12]
      dsimp only
      rw [prop_high h12 h.le (le_of_lt (not_le.1 hT1))]
  · rw [if_neg hT2]
    unfold Cfg.finish
    have hb : T2 ≤ Tmax := not_lt.1 hT2
    rw [h.calcI T1 T2 h0 h1 h12 hb, if_pos (h12.trans hb), prop_mid h12 h1 hb]

/-- The forward computation is the integral of the property. -/
theorem forward_eq {c : Cfg} {lo Tmin Tmax : ℝ} {fl f fh : ℝ → ℝ}
    (h : Exact c lo Tmin Tmax fl f fh) (T1 T2 : ℝ)
    (h0 : lo ≤ T1) (h12 : T1 ≤ T2) :
    c.forward T1 T2 = .val (∫ T in T1..T2, prop Tmin Tmax fl f fh T) := by
  have ii := prop_integrable (fl := fl) (f := f) (fh := fh) h.le h.int_low h.int h.int_high
  unfold Cfg.forward
  rw [h.lim]
  dsimp only
  by_cases h1 : T1 < Tmin
  · rw [if_pos h1, h.ext]
    simp only [if_true]
    by_cases h2 : T2 ≥ Tmin
    · rw [if_pos h2, h.low T1 Tmin h0 h1.le le_rfl]
      dsimp only
      rw [high_eq h _ Tmin T2 (h0.trans h1.le) le_rfl h2, if_pos h.le,
        ← integral_add_adjacent_intervals (ii T1 Tmin h0 (h0.trans h1.le))
        (ii Tmin T2 (h0.trans h1.le) (h0.trans h12)), prop_low h1.le le_rfl, zero_add]
    · rw [if_neg h2, h.low T1 T2 h0 h12 (le_of_lt (not_le.1 h2))]
      dsimp only
      rw [prop_low h12 (le_of_lt (not_le.1 h2))]
  · rw [if_neg h1, high_eq h _ T1 T2 h0 (not_lt.1 h1) h12]
    simp

/-- **C14.** With extrapolation on, the result is the integral of the property (method inside its
limits, extrapolations outside) between the two temperatures, in either order. -/
theorem C14_is_integral {c : Cfg} {lo Tmin Tmax : ℝ} {fl f fh : ℝ → ℝ}
    (h : Exact c lo Tmin Tmax fl f fh) (T1 T2 : ℝ)
    (h1 : lo ≤ T1) (h2 : lo ≤ T2) :
    c.integral T1 T2 = .val (∫ T in T1..T2, prop Tmin Tmax fl f fh T) := by
  unfold Cfg.integral
  by_cases h21 : T2 < T1
  · rw [if_pos h21, forward_eq h T2 T1 h2 h21.le]
    dsimp only
    rw [integral_symm, neg_neg]
  · rw [if_neg h21, forward_eq h T1 T2 h1 (not_lt.1 h21)]

/-- **C14.** Additive over any intermediate point and antisymmetric, wherever the three temperatures lie
relative to the limits of the method. -/
theorem C14_additive {c : Cfg} {lo Tmin Tmax : ℝ} {fl f fh : ℝ → ℝ}
    (h : Exact c lo Tmin Tmax fl f fh) (T1 T2 T3 : ℝ)
    (h1 : lo ≤ T1) (h2 : lo ≤ T2) (h3 : lo ≤ T3) :
    ∃ a b, c.integral T1 T3 = .val a ∧ c.integral T3 T2 = .val b ∧ c.integral T1 T2 = .val (a + b) ∧
      c.integral T3 T1 = .val (-a) := by
  have ii := prop_integrable (fl := fl) (f := f) (fh := fh) h.le h.int_low h.int h.int_high
  refine ⟨_, _, C14_is_integral h T1 T3 h1 h3, C14_is_integral h T3 T2 h3 h2, ?_, ?_⟩
  · rw [C14_is_integral h T1 T2 h1 h2, integral_add_adjacent_intervals (ii T1 T3 h1 h3) (ii T3 T2 h3 h2)]
  · rw [C14_is_integral h T3 T1 h3 h1, integral_symm]

/-- A method linear in temperature between 300 and 400 with constant extrapolations. -/
noncomputable def demo : Cfg where
  limits := some (300, 400)
  extrapolation := true
  raiseErr := false
  calcI a b := some (∫ T in a..b, T)
  extI a b := if b ≤ 300 then some (∫ _T in a..b, (300 : ℝ)) else some (∫ _T in a..b, (400 : ℝ))

theorem demo_exact : Exact demo 0 300 400 (fun _ => 300) (fun T => T) (fun _ => 400) where
  lim := rfl
  le := by norm_num
  ext := rfl
  calcI := by intros; rfl
  low := by
    intro a b _ _ hb
    simp only [demo]
    rw [if_pos hb]
  high := by
    intro a b _ ha hab
    simp only [demo]
    rw [if_neg (by linarith)]
  int_low := by intros; exact continuous_const.intervalIntegrable _ _
  int := by intros; exact continuous_id.intervalIntegrable _ _
  int_high := by intros; exact continuous_const.intervalIntegrable _ _

example : ∃ a b, demo.integral 250 350 = .val a ∧ demo.integral 350 450 = .val b ∧
    demo.integral 250 450 = .val (a + b) ∧ demo.integral 350 250 = .val (-a) :=
  C14_additive demo_exact 250 450 350 (by norm_num) (by norm_num) (by norm_num)

/-- **C14.** Without extrapolation a range that leaves the limits gives no number: `None`, or the error
when errors are enabled. -/
theorem C14_no_extrapolation (c : Cfg) (Tmin Tmax T1 T2 : ℝ) (hl : c.limits = some (Tmin, Tmax))
    (he : c.extrapolation = false) (h12 : T1 ≤ T2) (hout : T1 < Tmin ∨ Tmax < T2) :
    c.integral T1 T2 = if c.raiseErr then .raised else .none := by
  unfold Cfg.integral
  rw [if_neg (not_lt.2 h12)]
  unfold Cfg.forward
  rw [hl]
  dsimp only
  by_cases h1 : T1 < Tmin
  · rw [if_pos h1, he]; rfl
  · rw [if_neg h1]
    unfold Cfg.high
    rw [if_pos (hout.resolve_left h1), he]; rfl

example : ∃ c : Cfg, c.limits = some (300, 400) ∧ c.extrapolation = false ∧
    c.integral 250 350 = .none :=
  ⟨⟨some (300, 400), false, false, fun _ _ => some 1, fun _ _ => some 1⟩, rfl, rfl,
    C14_no_extrapolation _ 300 400 250 350 rfl rfl (by norm_num) (.inl (by norm_num))⟩

/-- **C14, antisymmetry fails when there is no value**: in the forward direction the call returns `None`,
in the backward direction it raises. -/
theorem C14_reversed_None_raises (c : Cfg) (T1 T2 : ℝ) (h : T1 < T2) (hn : c.integral T1 T2 = .none) :
    c.integral T2 T1 = .raised := by
  unfold Cfg.integral at *
  rw [if_neg (not_lt.2 h.le)] at hn
  rw [if_pos h, hn]

/-! ## C52: piecewise methods -/

open Classical in
/-- `calculate` of a piecewise method (3026-3031): pairs of transition temperature and method, and the
last method. -/
noncomputable def pw (l : List (ℝ × (ℝ → ℝ))) (last : ℝ → ℝ) (T : ℝ) : ℝ :=
  match l with
  | [] => last T
  | (Tmax, f) :: l => if T ≤ Tmax then f T else pw l last T

/-- A sub-method with its `calculate_integral`. -/
structure Sub where
  f : ℝ → ℝ
  I : ℝ → ℝ → ℝ

open Classical in
/-- The loop of `calculate_integral` (4199-4208). -/
noncomputable def pwLoop (l : List (ℝ × Sub)) (last : Sub) (acc Ta T2 : ℝ) : ℝ :=
  match l with
  | [] => acc + last.I Ta T2
  | (Tmax, s) :: l =>
    if T2 ≤ Tmax then acc + s.I Ta T2
    else if Ta < Tmax then pwLoop l last (acc + s.I Ta Tmax) Tmax T2
    else pwLoop l last acc Ta T2

open Classical in
/-- `calculate_integral` for a piecewise method (4194-4208). -/
noncomputable def pwIntegral (l : List (ℝ × Sub)) (last : Sub) (T1 T2 : ℝ) : ℝ :=
  if T2 < T1 then -pwLoop l last 0 T2 T1 else pwLoop l last 0 T1 T2

/-- A sub-method whose integral is right. -/
def Sub.Good (s : Sub) : Prop :=
  (∀ a b, a ≤ b → s.I a b = ∫ T in a..b, s.f T) ∧ ∀ a b, IntervalIntegrable s.f volume a b

noncomputable def pwOf (l : List (ℝ × Sub)) (last : Sub) : ℝ → ℝ :=
  pw (l.map fun p => (p.1, p.2.f)) last.f

theorem pwOf_integrable (l : List (ℝ × Sub)) (last : Sub) (hl : ∀ p ∈ l, p.2.Good)
    (hlast : last.Good) (a b : ℝ) : IntervalIntegrable (pwOf l last) volume a b := by
  induction l generalizing a b with
  | nil => exact hlast.2 a b
  | cons p l ih =>
    obtain ⟨Tmax, s⟩ := p
    have ih' := ih fun p hp => hl p (List.mem_cons_of_mem _ hp)
    have hs : s.Good := hl (Tmax, s) (List.mem_cons_self ..)
    have A : ∀ a b, a ≤ b → b ≤ Tmax → IntervalIntegrable (pwOf ((Tmax, s) :: l) last) volume a b := by
      intro a b hab hb
      refine (hs.2 a b).congr_uIoo ?_
      rw [uIoo_of_le hab]
      intro T hT
      simp only [pwOf, List.map_cons, pw]
      rw [if_pos (hT.2.le.trans hb)]
    have B : ∀ a b, a ≤ b → Tmax ≤ a → IntervalIntegrable (pwOf ((Tmax, s) :: l) last) volume a b := by
      intro a b hab ha
      refine (ih' a b).congr_uIoo ?_
      rw [uIoo_of_le hab]
      intro T hT
      simp only [pwOf, List.map_cons, pw]
      rw [if_neg (not_le.2 (lt_of_le_of_lt ha hT.1))]
    refine ii_of_le (fun a b hab => ?_) a b
    rcases le_total b Tmax with hb | hb
    · exact A a b hab hb
    · rcases le_total a Tmax with h | h
      · exact (A a Tmax h le_rfl).trans (B Tmax b hb le_rfl)
      · exact B a b hab h

theorem pwLoop_eq (l : List (ℝ × Sub)) (last : Sub) (hl : ∀ p ∈ l, p.2.Good) (hlast : last.Good)
    (acc Ta T2 : ℝ) (h : Ta ≤ T2) :
    pwLoop l last acc Ta T2 = acc + ∫ T in Ta..T2, pwOf l last T := by
  induction l generalizing acc Ta with
  | nil => simp only [pwLoop]; rw [hlast.1 Ta T2 h]; rfl
  | cons p l ih =>
    obtain ⟨Tmax, s⟩ := p
    have hl' : ∀ p ∈ l, p.2.Good := fun p hp => hl p (List.mem_cons_of_mem _ hp)
    have hs : s.Good := hl (Tmax, s) (List.mem_cons_self ..)
    have A : ∀ a b, a ≤ b → b ≤ Tmax →
        ∫ T in a..b, pwOf ((Tmax, s) :: l) last T = ∫ T in a..b, s.f T := by
      intro a b hab hb
      apply integral_congr_Ioo_of_le hab
      intro T hT
      simp only [pwOf, List.map_cons, pw]
      rw [if_pos (hT.2.le.trans hb)]
    have B : ∀ a b, a ≤ b → Tmax ≤ a →
        ∫ T in a..b, pwOf ((Tmax, s) :: l) last T = ∫ T in a..b, pwOf l last T := by
      intro a b hab ha
      apply integral_congr_Ioo_of_le hab
      intro T hT
      simp only [pwOf, List.map_cons, pw]
      rw [if_neg (not_le.2 (lt_of_le_of_lt ha hT.1))]
    simp only [pwLoop]
    by_cases h2 : T2 ≤ Tmax
    · rw [if_pos h2, hs.1 Ta T2 h, A Ta T2 h h2]
    · rw [if_neg h2]
      have h2' := (not_le.1 h2).le
      by_cases ha : Ta < Tmax
      · rw [if_pos ha, ih hl' _ Tmax h2', hs.1 Ta Tmax ha.le,
          ← integral_add_adjacent_intervals (pwOf_integrable _ last hl hlast Ta Tmax)
            (pwOf_integrable _ last hl hlast Tmax T2), A Ta Tmax ha.le le_rfl, B Tmax T2 h2' le_rfl]
        ring
      · rw [if_neg ha, ih hl' _ Ta h, B Ta T2 h (not_lt.1 ha)]

/-- **C52.** The integral of a piecewise method is the integral of its `calculate`, in either order of
the limits and for any transition temperatures. -/
theorem C52_piecewise_integral (l : List (ℝ × Sub)) (last : Sub) (hl : ∀ p ∈ l, p.2.Good)
    (hlast : last.Good) (T1 T2 : ℝ) :
    pwIntegral l last T1 T2 = ∫ T in T1..T2, pwOf l last T := by
  unfold pwIntegral
  by_cases h : T2 < T1
  · rw [if_pos h, pwLoop_eq l last hl hlast 0 T2 T1 h.le, integral_symm T1 T2, zero_add, neg_neg] <;> rfl
  · rw [if_neg h, pwLoop_eq l last hl hlast 0 T1 T2 (not_lt.1 h), zero_add]

/-- Two constant sub-methods that differ. -/
noncomputable def constSub (v : ℝ) : Sub := ⟨fun _ => v, fun a b => v * (b - a)⟩

theorem constSub_good (v : ℝ) : (constSub v).Good :=
  ⟨fun a b _ => by simp [constSub, mul_comm], fun a b => continuous_const.intervalIntegrable _ _⟩

example : pwIntegral [(300, constSub 1)] (constSub 2) 200 500 = 500 ∧
    pwIntegral [(300, constSub 1)] (constSub 2) 200 500
      = ∫ T in (200 : ℝ)..500, pwOf [(300, constSub 1)] (constSub 2) T := by
  refine ⟨?_, C52_piecewise_integral _ _ (by simp [constSub_good]) (constSub_good 2) _ _⟩
  unfold pwIntegral
  rw [if_neg (by norm_num)]
  simp only [pwLoop, constSub]
  norm_num

end Verif.Integrals
