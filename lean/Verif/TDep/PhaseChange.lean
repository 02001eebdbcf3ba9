import Mathlib.Tactic
import Mathlib.Analysis.SpecialFunctions.Pow.Real
import Mathlib.MeasureTheory.Integral.IntervalIntegral.FundThmCalculus
import Mathlib.Analysis.SpecialFunctions.Log.Deriv

/-!
# Enthalpies of vaporisation and sublimation, sublimation pressure, limits of a viscosity equation

* C113: `EnthalpyVaporization` (`phase_change.py` 300-508), `EnthalpySublimation` (624-759), the two-point relations used by `VaporPressure` and `SublimationPressure`
  (`vapor_pressure.py` 497-515, 716-717) and `determine_PPDS9_limits` (`viscosity.py` 144-212).

`Watson`, `Clapeyron`, `Psub_Clapeyron` and `boiling_critical_relation` of the external library are their documented formulas. A power of a negative number is a complex number in Python: here
the outcome `complex`.
-/

namespace Verif.PhaseChange

open Real

/-! ## Enthalpy of vaporisation -/

/-- What an evaluation gives. -/
inductive Out
  | num (x : ℝ)
  | complex
  | error

/-- Python's `b ** n` for a fractional power. -/
noncomputable def pow (b n : ℝ) : Out := if b < 0 then .complex else .num (b ^ n)

/-- `Watson` of `chemicals` (documented): `H_ref ((1 - T/Tc)/(1 - T_ref/Tc))^n`; an error if the reference is the critical point. -/
noncomputable def watson (T Href Tref Tc n : ℝ) : Out :=
  if 1 - Tref / Tc = 0 then .error else
    match pow ((1 - T / Tc) / (1 - Tref / Tc)) n with
    | .num x => .num (Href * x)
    | o => o

/-- `Watson_exponent` (phase_change.py 279). -/
noncomputable def exponent : ℝ := 0.38

/-- Methods of the class with a value at one temperature (425-439), those from corresponding states (406-413) and the Clapeyron equation. -/
inductive Method
  | boiling
  | crcTb
  | crc298
  | gharagheizi298
  | csp
  | clapeyron

/-- The object; `Tc = 0` stands for an absent critical temperature (the code tests for truth). `hBoil` is the value of the correlation at the boiling point, `csp` that of a correlation at `T`;
`Zg`, `Zl` likewise are 0 when absent. -/
structure Obj where
  Tb : ℝ
  Tc : ℝ
  Pc : ℝ
  hBoil : ℝ
  crcTb : ℝ
  hCrcTb : ℝ
  hCrc298 : ℝ
  hGhar298 : ℝ
  csp : ℝ → ℝ
  Psat : ℝ → Option ℝ
  Zg : ℝ
  Zl : ℝ

/-- `Clapeyron` of `chemicals` (documented): `R T dZ ln(Pc/Psat)/(1 - T/Tc)`. -/
noncomputable def clapeyron (R T Tc Pc dZ Psat : ℝ) : Out := if 1 - T / Tc = 0 then .error else .num (R * T * dZ * log (Pc / Psat) / (1 - T / Tc))

/-- `dZ` (418-422); `none`: the name is unbound. -/
noncomputable def deltaZ (Zg Zl : ℝ) : Option ℝ := if Zg = 0 then none else if Zl = 0 then some Zg else some (Zg - Zl)

/-- `EnthalpyVaporization.calculate` (403-451). -/
noncomputable def hvap (R : ℝ) (o : Obj) (T : ℝ) : Method → Out
  | .csp => .num (o.csp T)
  | .clapeyron =>
    match o.Psat T, deltaZ o.Zg o.Zl with
    | some Ps, some dZ => clapeyron R T o.Tc o.Pc dZ Ps
    | _, _ => .error
  | .boiling => watson T o.hBoil o.Tb o.Tc exponent
  | .crcTb => if o.Tc = 0 then .num o.hCrcTb else watson T o.hCrcTb o.crcTb o.Tc exponent
  | .crc298 => if o.Tc = 0 then .num o.hCrc298 else watson T o.hCrc298 298.15 o.Tc exponent
  | .gharagheizi298 => if o.Tc = 0 then .num o.hGhar298 else watson T o.hGhar298 298.15 o.Tc exponent

/-- `EnthalpyVaporization.test_method_validity` (483-505). -/
def valid (o : Obj) (T : ℝ) : Method → Prop
  | .crcTb => if o.Tc = 0 then o.crcTb - 5 ≤ T ∧ T ≤ o.crcTb + 5 else T ≤ o.Tc
  | .crc298 | .gharagheizi298 => if o.Tc = 0 then 298.15 - 5 ≤ T ∧ T ≤ (298.15 : ℝ) + 5 else True
  | .boiling | .csp => T ≤ o.Tc
  | .clapeyron => (∃ P, o.Psat T = some P) ∧ T < o.Tc

/-- `T_limits` (341-368). -/
noncomputable def limits (o : Obj) : Method → ℝ × ℝ
  | .crcTb => if o.Tc = 0 then (o.crcTb, o.crcTb) else (o.Tc * 0.001, o.Tc)
  | .crc298 | .gharagheizi298 => if o.Tc = 0 then (298.15, 298.15) else (o.Tc * 0.001, o.Tc)
  | .boiling | .csp | .clapeyron => (1e-4, o.Tc)

/-- Reference temperature and value of the methods that have one: what the data mean. -/
noncomputable def reference (o : Obj) : Method → Option (ℝ × ℝ)
  | .boiling => some (o.Tb, o.hBoil)
  | .crcTb => some (o.crcTb, o.hCrcTb)
  | .crc298 => some (298.15, o.hCrc298)
  | .gharagheizi298 => some (298.15, o.hGhar298)
  | _ => none

theorem exponent_pos : 0 < exponent := by norm_num [exponent]

theorem watson_eq {T H Tr Tc n : ℝ} (hc : 0 < Tc) (hr : Tr < Tc) (hT : T ≤ Tc) : watson T H Tr Tc n = .num (H * ((Tc - T) / (Tc - Tr)) ^ n) := by
  have h1 : 0 < 1 - Tr / Tc := by rw [sub_pos, div_lt_one hc]; exact hr
  have h2 : 0 ≤ 1 - T / Tc := by rw [sub_nonneg, div_le_one hc]; exact hT
  have e : (1 - T / Tc) / (1 - Tr / Tc) = (Tc - T) / (Tc - Tr) := by
    have : Tc - Tr ≠ 0 := (sub_pos.2 hr).ne'
    have h3 : 1 - Tr / Tc = (Tc - Tr) / Tc := by field_simp
    rw [h3]
    field_simp
  unfold watson pow
  rw [if_neg h1.ne', if_neg (not_lt.2 (div_nonneg h2 h1.le)), e]

/-- The value at the reference temperature is the reference value. -/
theorem C113_reference (R : ℝ) (o : Obj) (m : Method) (Tr H : ℝ) (h : reference o m = some (Tr, H)) (hc : o.Tc = 0 ∧ m ≠ .boiling ∨ 0 < o.Tc ∧ Tr < o.Tc) :
    hvap R o Tr m = .num H := by
  have key : ∀ H, 0 < o.Tc → Tr < o.Tc → watson Tr H Tr o.Tc exponent = .num H := fun H h1 h2 => by
    rw [watson_eq h1 h2 h2.le, div_self (sub_pos.2 h2).ne', one_rpow, mul_one]
  cases m <;> simp only [reference, Option.some.injEq, Prod.mk.injEq, reduceCtorEq] at h
  all_goals obtain ⟨rfl, rfl⟩ := h
  all_goals simp only [hvap]
  · rcases hc with hc | hc
    · exact absurd rfl hc.2
    · exact key _ hc.1 hc.2
  all_goals
    rcases hc with hc | hc
    · rw [if_pos hc.1]
    · rw [if_neg hc.1.ne', key _ hc.1 hc.2]

/-- Up to the critical temperature the scaled value is a real number, positive below and zero at it, and falls as the temperature rises. -/
theorem C113_scaling (R : ℝ) (o : Obj) (m : Method) (Tr H : ℝ) (h : reference o m = some (Tr, H)) (hc : 0 < o.Tc) (hr : Tr < o.Tc) (hH : 0 < H) :
    ∃ f : ℝ → ℝ, (∀ T ≤ o.Tc, hvap R o T m = .num (f T)) ∧ (∀ T < o.Tc, 0 < f T) ∧ f o.Tc = 0 ∧ (∀ T U, T < U → U ≤ o.Tc → f U < f T) ∧
      ∀ T < o.Tc, f T = H * exp (0.38 * (log (o.Tc - T) - log (o.Tc - Tr))) := by
  have hd : 0 < o.Tc - Tr := sub_pos.2 hr
  have hm : ∀ T, hvap R o T m = watson T H Tr o.Tc exponent := by
    intro T
    cases m <;> simp only [reference, Option.some.injEq, Prod.mk.injEq, reduceCtorEq] at h
    all_goals obtain ⟨rfl, rfl⟩ := h
    all_goals simp only [hvap, hc.ne', if_false]
  refine ⟨fun T => H * ((o.Tc - T) / (o.Tc - Tr)) ^ exponent, fun T hT => by rw [hm, watson_eq hc hr hT], ?_, ?_, ?_, ?_⟩
  · intro T hT
    exact mul_pos hH (rpow_pos_of_pos (div_pos (sub_pos.2 hT) hd) _)
  · simp [zero_rpow exponent_pos.ne']
  · intro T U hTU hU
    refine mul_lt_mul_of_pos_left (rpow_lt_rpow (div_nonneg (sub_nonneg.2 hU) hd.le) ?_ exponent_pos) hH
    exact div_lt_div_of_pos_right (by linarith) hd
  · intro T hT
    have h1 : 0 < o.Tc - T := sub_pos.2 hT
    dsimp only
    rw [rpow_def_of_pos (div_pos h1 hd), log_div h1.ne' hd.ne', exponent, mul_comm (0.38 : ℝ)]

/-- Scaling in two steps is scaling in one: the choice of the intermediate temperature does not matter. -/
theorem C113_compose (T T1 Tr Tc H H1 n : ℝ) (hc : 0 < Tc) (hr : Tr < Tc) (h1 : T1 < Tc) (hT : T ≤ Tc) (h : watson T1 H Tr Tc n = .num H1) :
    watson T H1 T1 Tc n = watson T H Tr Tc n := by
  rw [watson_eq hc hr h1.le] at h
  rw [watson_eq hc h1 hT, watson_eq hc hr hT]
  cases h
  have a1 : 0 < Tc - Tr := sub_pos.2 hr
  have a2 : 0 < Tc - T1 := sub_pos.2 h1
  have a3 : 0 ≤ Tc - T := sub_nonneg.2 hT
  rw [mul_assoc, ← mul_rpow (div_nonneg a2.le a1.le) (div_nonneg a3 a2.le)]
  congr 3
  field_simp

/-- Water-like numbers. -/
noncomputable def water : Obj := ⟨373, 647, 22000000, 40000, 373, 40600, 44000, 44000, fun _ => 0, fun T => some (100000 * T / 373), 0.98, 0.02⟩

example : reference water .crcTb = some (373, 40600) ∧ 0 < water.Tc ∧ (373 : ℝ) < water.Tc ∧ (298.15 : ℝ) < water.Tc ∧ valid water 400 .crcTb ∧ ¬ valid water 700 .crcTb := by
  refine ⟨rfl, ?_, ?_, ?_, ?_, ?_⟩ <;> norm_num [water, valid]

/-- With a critical temperature the two methods with a value at 298.15 K are called valid at any temperature; above the critical one they give a complex number. -/
theorem C113_validity_fails (R : ℝ) (o : Obj) (m : Method) (hm : m = .crc298 ∨ m = .gharagheizi298) (hc : 298.15 < o.Tc) (T : ℝ) (hT : o.Tc < T) : valid o T m ∧ hvap R o T m = .complex := by
  have h0 : 0 < o.Tc := lt_trans (by norm_num) hc
  have h1 : 0 < 1 - 298.15 / o.Tc := by rw [sub_pos, div_lt_one h0]; exact hc
  have h2 : 1 - T / o.Tc < 0 := by rw [sub_neg, one_lt_div h0]; exact hT
  have w : ∀ H, watson T H 298.15 o.Tc exponent = .complex := by
    intro H
    unfold watson pow
    rw [if_neg h1.ne', if_pos (div_neg_of_neg_of_pos h2 h1)]
  rcases hm with rfl | rfl <;> simp only [valid, hvap, h0.ne', if_false, w, and_self]

/-- The other methods are valid only where the value is real and not negative. -/
theorem C113_valid_partial (R : ℝ) (o : Obj) (m : Method) (hm : m = .boiling ∨ m = .crcTb) (Tr H : ℝ) (h : reference o m = some (Tr, H)) (hc : 0 < o.Tc) (hr : Tr < o.Tc) (hH : 0 < H) (T : ℝ)
    (hv : valid o T m) : ∃ x, hvap R o T m = .num x ∧ 0 ≤ x := by
  have hT : T ≤ o.Tc := by
    rcases hm with rfl | rfl
    · exact hv
    · simpa only [valid, hc.ne', if_false] using hv
  obtain ⟨f, h1, h2, h3, _⟩ := C113_scaling R o m Tr H h hc hr hH
  refine ⟨f T, h1 T hT, ?_⟩
  rcases hT.lt_or_eq with hlt | rfl
  · exact (h2 T hlt).le
  · rw [h3]

/-- Without a critical temperature a window of five kelvin is called valid, but the recorded limits are the single temperature, so calls inside the window are extrapolated all the same. -/
theorem C113_window_fails (o : Obj) (h0 : o.Tc = 0) (T : ℝ) : (valid o T .crcTb ↔ |T - o.crcTb| ≤ 5) ∧ ((limits o .crcTb).1 ≤ T ∧ T ≤ (limits o .crcTb).2 ↔ T = o.crcTb) ∧
    (valid o T .crc298 ↔ |T - 298.15| ≤ 5) ∧ ((limits o .crc298).1 ≤ T ∧ T ≤ (limits o .crc298).2 ↔ T = 298.15) := by
  simp only [valid, limits, h0, if_true, abs_le]
  refine ⟨⟨fun h => ⟨by linarith [h.1], by linarith [h.2]⟩, fun h => ⟨by linarith [h.1], by linarith [h.2]⟩⟩, ⟨fun h => le_antisymm h.2 h.1, fun h => ⟨h.ge, h.le⟩⟩,
    ⟨fun h => ⟨by linarith [h.1], by linarith [h.2]⟩, fun h => ⟨by linarith [h.1], by linarith [h.2]⟩⟩, ⟨fun h => le_antisymm h.2 h.1, fun h => ⟨h.ge, h.le⟩⟩⟩

/-- The Clapeyron equation below the critical point: positive when the gas is the more voluminous phase and the vapour pressure is below the critical pressure. -/
theorem C113_clapeyron_partial (R : ℝ) (o : Obj) (T Ps : ℝ) (hR : 0 < R) (hT : 0 < T) (hTc : T < o.Tc) (hP : o.Psat T = some Ps) (hPs : 0 < Ps) (hPc : Ps < o.Pc) (hZ : 0 ≤ o.Zl) (hZg : o.Zl < o.Zg) :
    ∃ x, hvap R o T .clapeyron = .num x ∧ 0 < x ∧ x * (1 - T / o.Tc) = R * T * (o.Zg - o.Zl) * log (o.Pc / Ps) := by
  have h1 : 0 < 1 - T / o.Tc := by rw [sub_pos, div_lt_one (hT.trans hTc)]; exact hTc
  have hdz : deltaZ o.Zg o.Zl = some (o.Zg - o.Zl) := by
    unfold deltaZ
    rw [if_neg (hZ.trans_lt hZg).ne']
    split_ifs with h
    · rw [h, sub_zero]
    · rfl
  refine ⟨R * T * (o.Zg - o.Zl) * log (o.Pc / Ps) / (1 - T / o.Tc), ?_, ?_, div_mul_cancel₀ _ h1.ne'⟩
  · simp only [hvap, hP, hdz, clapeyron, h1.ne', if_false]
  · have : 0 < log (o.Pc / Ps) := log_pos ((one_lt_div hPs).2 hPc)
    have : 0 < o.Zg - o.Zl := sub_pos.2 hZg
    positivity

/-- A temperature called valid for the Clapeyron equation gives a number, provided the gas has a compressibility; and the limits recorded for the scaled methods are a thousandth of the critical temperature and the critical temperature. -/
theorem C113_clapeyron_valid (R : ℝ) (o : Obj) (T : ℝ) (hc : 0 < o.Tc) (hZ : o.Zg ≠ 0) (h : valid o T .clapeyron) :
    (∃ x, hvap R o T .clapeyron = .num x) ∧ (∀ m, m = .crcTb ∨ m = .crc298 ∨ m = .gharagheizi298 → 1000 * (limits o m).1 = o.Tc ∧ (limits o m).2 = o.Tc) := by
  obtain ⟨⟨P, hP⟩, hT⟩ := h
  have h1 : 1 - T / o.Tc ≠ 0 := by
    intro e
    have : T / o.Tc = 1 := by linarith
    rw [div_eq_one_iff_eq hc.ne'] at this
    linarith
  constructor
  · obtain ⟨dz, hdz⟩ : ∃ dz, deltaZ o.Zg o.Zl = some dz := by
      unfold deltaZ
      rw [if_neg hZ]
      split_ifs
      · exact ⟨_, rfl⟩
      · exact ⟨_, rfl⟩
    exact ⟨R * T * dz * log (o.Pc / P) / (1 - T / o.Tc), by simp only [hvap, hP, hdz, clapeyron, h1, if_false]⟩
  · rintro m (rfl | rfl | rfl) <;> simp only [limits, hc.ne', if_false] <;> constructor <;> first | linarith | simp

/-- At its upper limit, which is part of the range, it divides by zero; without a compressibility of the gas it uses an unbound name; both although the method was offered. -/
theorem C113_clapeyron_fails (R : ℝ) (o : Obj) (hc : 0 < o.Tc) : (limits o .clapeyron).2 = o.Tc ∧ hvap R o o.Tc .clapeyron = .error ∧
    (o.Zg = 0 → ∀ T, hvap R o T .clapeyron = .error) ∧ (∀ T, o.Psat T = none → hvap R o T .clapeyron = .error) := by
  refine ⟨rfl, ?_, ?_, ?_⟩
  · simp only [hvap]
    split
    · simp [clapeyron, div_self hc.ne']
    · rfl
  · intro h T
    have : deltaZ o.Zg o.Zl = none := by simp [deltaZ, h]
    simp only [hvap, this]
    split <;> simp_all
  · intro T h
    simp only [hvap, h]

example : 0 < water.Tc ∧ water.Zg ≠ 0 ∧ valid water 373 .clapeyron := by
  refine ⟨by norm_num [water], by norm_num [water], ⟨_, rfl⟩, by norm_num [water]⟩

example : ∃ x, hvap 8.314 water 373 .clapeyron = .num x ∧ 0 < x := by
  obtain ⟨x, h1, h2, _⟩ := C113_clapeyron_partial 8.314 water 373 100000 (by norm_num) (by norm_num) (by norm_num [water]) (by simp [water]) (by norm_num) (by norm_num [water]) (by norm_num [water])
    (by norm_num [water])
  exact ⟨x, h1, h2⟩

/-! ## Enthalpy of sublimation -/

/-- An argument that may be a property object or a number: `Hvap` answers a temperature, a heat capacity two temperatures with the integral. `None` answers count as failures. -/
inductive Ref (α : Type)
  | object (f : α → Option ℝ)
  | number (x : ℝ)

/-- The object (`phase_change.py` 624-632) with its data. -/
structure Sub where
  Tm : ℝ
  hfus : ℝ
  h298 : ℝ
  hvap : Ref ℝ
  cpg : Ref (ℝ × ℝ)
  cps : Ref (ℝ × ℝ)

/-- Lines 717-720: the object is called; if that fails the attribute itself is added, which fails for an object. -/
def addHvap (o : Sub) : Option ℝ :=
  match o.hvap with
  | .object f => (f o.Tm).map (o.hfus + ·)
  | .number x => some (o.hfus + x)

/-- Lines 724-729: both integrals; if either fails the difference of the attributes, which fails for objects. -/
def addCp (o : Sub) (Tbase T h : ℝ) : Option ℝ :=
  match o.cpg, o.cps with
  | .object f, .object g =>
    match f (Tbase, T), g (Tbase, T) with
    | some x, some y => some (h + (x - y))
    | _, _ => none
  | .number x, .number y => some (h + (T - Tbase) * (x - y))
  | _, _ => none

/-- The two methods with an own formula (711-729). -/
inductive SubMethod
  | gharagheizi
  | cycle

/-- `EnthalpySublimation.calculate`. -/
noncomputable def hsub (o : Sub) (T : ℝ) : SubMethod → Option ℝ
  | .gharagheizi => addCp o 298.15 T o.h298
  | .cycle => (addHvap o).bind (addCp o o.Tm T)

/-- Base temperature and value. -/
noncomputable def subBase (o : Sub) : SubMethod → Option (ℝ × ℝ)
  | .gharagheizi => some (298.15, o.h298)
  | .cycle =>
    match o.hvap with
    | .object f => (f o.Tm).map fun h => (o.Tm, o.hfus + h)
    | .number h => some (o.Tm, o.hfus + h)

/-- The heat capacities are objects that integrate the functions `g` and `s`, or numbers. -/
def Integrates (r : Ref (ℝ × ℝ)) (c : ℝ → ℝ) : Prop :=
  match r with
  | .object f => ∀ a b, f (a, b) = some (∫ t in a..b, c t)
  | .number x => ∀ t, c t = x

/-- Both are objects, or both are numbers. -/
def Same (o : Sub) : Prop := (∃ f g, o.cpg = .object f ∧ o.cps = .object g) ∨ ∃ x y, o.cpg = .number x ∧ o.cps = .number y

theorem addCp_eq {o : Sub} (hs : Same o) {g s : ℝ → ℝ} (hg : Integrates o.cpg g) (hS : Integrates o.cps s) (a b h : ℝ) :
    addCp o a b h = some (h + ((∫ t in a..b, g t) - ∫ t in a..b, s t)) := by
  rcases hs with ⟨f, k, e1, e2⟩ | ⟨x, y, e1, e2⟩
  · rw [e1] at hg; rw [e2] at hS
    simp only [addCp, e1, e2]
    have h1 : f (a, b) = _ := hg a b
    have h2 : k (a, b) = _ := hS a b
    rw [h1, h2]
  · rw [e1] at hg; rw [e2] at hS
    simp only [addCp, e1, e2]
    have h1 : g = fun _ => x := funext hg
    have h2 : s = fun _ => y := funext hS
    simp only [h1, h2, intervalIntegral.integral_const, smul_eq_mul, Option.some.injEq]
    ring

/-- Kirchhoff's law: with heat capacities of one kind the value is the base value at the base temperature, and its derivative the difference of the heat capacities of gas and solid. -/
theorem C113_sublimation (o : Sub) (hs : Same o) (g s : ℝ → ℝ) (hg : Integrates o.cpg g) (hS : Integrates o.cps s) (cg : Continuous g) (cs : Continuous s) (m : SubMethod) (Tb h : ℝ)
    (hb : subBase o m = some (Tb, h)) : ∃ f : ℝ → ℝ, (∀ T, hsub o T m = some (f T)) ∧ f Tb = h ∧ ∀ T, HasDerivAt f (g T - s T) T := by
  refine ⟨fun T => h + ((∫ t in Tb..T, g t) - ∫ t in Tb..T, s t), ?_, by simp, ?_⟩
  · intro T
    cases m
    · simp only [subBase, Option.some.injEq, Prod.mk.injEq] at hb
      obtain ⟨rfl, rfl⟩ := hb
      exact addCp_eq hs hg hS _ _ _
    · cases e : o.hvap with
      | object f =>
        simp only [subBase, e] at hb
        cases ef : f o.Tm with
        | none => simp [ef] at hb
        | some v =>
          simp only [ef, Option.map_some, Option.some.injEq, Prod.mk.injEq] at hb
          obtain ⟨rfl, rfl⟩ := hb
          simp only [hsub, addHvap, e, ef, Option.map_some, Option.bind_some]
          exact addCp_eq hs hg hS _ _ _
      | number v =>
        simp only [subBase, e, Option.some.injEq, Prod.mk.injEq] at hb
        obtain ⟨rfl, rfl⟩ := hb
        simp only [hsub, addHvap, e, Option.bind_some]
        exact addCp_eq hs hg hS _ _ _
  · intro T
    have h1 := intervalIntegral.integral_hasDerivAt_right (cg.intervalIntegrable Tb T) (cg.stronglyMeasurableAtFilter _ _) cg.continuousAt
    have h2 := intervalIntegral.integral_hasDerivAt_right (cs.intervalIntegrable Tb T) (cs.stronglyMeasurableAtFilter _ _) cs.continuousAt
    exact (h1.fun_sub h2).const_add h

/-- Hence the two methods differ by the same amount at all temperatures. -/
theorem C113_parallel (o : Sub) (hs : Same o) (g s : ℝ → ℝ) (hg : Integrates o.cpg g) (hS : Integrates o.cps s) (cg : Continuous g) (cs : Continuous s) (Tb h : ℝ)
    (hb : subBase o .cycle = some (Tb, h)) : ∃ d, ∀ T, ∃ x y, hsub o T .cycle = some x ∧ hsub o T .gharagheizi = some y ∧ x - y = d := by
  obtain ⟨f, f1, _, f3⟩ := C113_sublimation o hs g s hg hS cg cs .cycle Tb h hb
  obtain ⟨k, k1, _, k3⟩ := C113_sublimation o hs g s hg hS cg cs .gharagheizi _ _ rfl
  have hd : ∀ T, HasDerivAt (fun T => f T - k T) 0 T := fun T => ((f3 T).fun_sub (k3 T)).congr_deriv (sub_self _)
  refine ⟨f 0 - k 0, fun T => ⟨f T, k T, f1 T, k1 T, ?_⟩⟩
  exact is_const_of_deriv_eq_zero (f := fun T => f T - k T) (fun x => (hd x).differentiableAt) (fun x => (hd x).deriv) T 0

/-- A property object for one phase and a number for the other is not handled, whatever the values; and an enthalpy of vaporisation that cannot be found at the melting point is an error as well. -/
theorem C113_mixed_fails (o : Sub) (T : ℝ) : (∀ f x, o.cpg = .object f → o.cps = .number x → ∀ m, hsub o T m = none) ∧ (∀ f x, o.cps = .object f → o.cpg = .number x → ∀ m, hsub o T m = none) ∧
    (∀ f, o.hvap = .object f → f o.Tm = none → hsub o T .cycle = none) := by
  have none_bind : ∀ (k : ℝ → Option ℝ) (z : Option ℝ), (∀ h, k h = none) → z.bind k = none := by
    intro k z hk; cases z <;> simp [hk]
  refine ⟨?_, ?_, ?_⟩
  · intro f x h1 h2 m
    have : ∀ b h, addCp o b T h = none := fun b h => by simp [addCp, h1, h2]
    cases m
    · exact this _ _
    · exact none_bind _ _ fun h => this _ h
  · intro f x h1 h2 m
    have : ∀ b h, addCp o b T h = none := fun b h => by simp [addCp, h1, h2]
    cases m
    · exact this _ _
    · exact none_bind _ _ fun h => this _ h
  · intro f h1 h2
    simp [hsub, addHvap, h1, h2]

example : hsub ⟨273, 6000, 51000, .number 45000, .number 33, .number 38⟩ 263 .cycle = some 51050 ∧ Same ⟨273, 6000, 51000, .number 45000, .number 33, .number 38⟩ ∧
    subBase ⟨273, 6000, 51000, .number 45000, .number 33, .number 38⟩ .cycle = some (273, 51000) := by
  refine ⟨?_, Or.inr ⟨33, 38, rfl, rfl⟩, ?_⟩
  · simp only [hsub, addHvap, addCp, Option.bind_some, Option.some.injEq]; norm_num
  · simp only [subBase, Option.some.injEq, Prod.mk.injEq]; norm_num

/-! ## Two-point relations for the vapour pressure -/

/-- `Psub_Clapeyron` of `chemicals` (documented), called at `vapor_pressure.py` 717. -/
noncomputable def psub (R T Tt Pt H : ℝ) : ℝ := exp (log Pt + H / R * (1 / Tt - 1 / T))

/-- `boiling_critical_relation` of `chemicals` (documented), called at `vapor_pressure.py` 498. -/
noncomputable def boilingCritical (T Tb Tc Pc : ℝ) : ℝ := Pc * exp (Tb / Tc * log (Pc / 101325) / (1 - Tb / Tc) * (1 - Tc / T))

/-- The sublimation pressure is that of the triple point there, and rises with temperature, `d ln P/dT = H/(R T²)`. -/
theorem C113_psub (R Tt Pt H : ℝ) (hR : 0 < R) (hP : 0 < Pt) (hH : 0 < H) : psub R Tt Tt Pt H = Pt ∧ (∀ T U, 0 < T → T < U → psub R T Tt Pt H < psub R U Tt Pt H) ∧
    ∀ T, 0 < T → HasDerivAt (fun T => log (psub R T Tt Pt H)) (H / (R * T ^ 2)) T := by
  refine ⟨by simp [psub, exp_log hP], ?_, ?_⟩
  · intro T U hT hTU
    unfold psub
    refine exp_lt_exp.2 ?_
    have h1 : 1 / U < 1 / T := one_div_lt_one_div_of_lt hT hTU
    have h2 : 0 < H / R := div_pos hH hR
    nlinarith
  · intro T hT
    have e : (fun T => log (psub R T Tt Pt H)) = fun T => log Pt + H / R * (1 / Tt - T⁻¹) := by
      funext T; simp [psub]
    rw [e]
    have h := (((hasDerivAt_inv hT.ne').const_sub (1 / Tt)).const_mul (H / R)).const_add (log Pt)
    refine h.congr_deriv ?_
    field_simp

/-- The two-parameter vapour pressure is one atmosphere at the boiling point and the critical pressure at the critical one, and rises in between and beyond. -/
theorem C113_boiling_critical (Tb Tc Pc : ℝ) (hb : 0 < Tb) (hbc : Tb < Tc) (hP : 101325 < Pc) : boilingCritical Tb Tb Tc Pc = 101325 ∧ boilingCritical Tc Tb Tc Pc = Pc ∧
    ∀ T U, 0 < T → T < U → boilingCritical T Tb Tc Pc < boilingCritical U Tb Tc Pc := by
  have hc : 0 < Tc := hb.trans hbc
  have hP0 : 0 < Pc := lt_trans (by norm_num) hP
  have hl : 0 < log (Pc / 101325) := log_pos ((one_lt_div (by norm_num)).2 hP)
  have h1 : 0 < 1 - Tb / Tc := by rw [sub_pos, div_lt_one hc]; exact hbc
  refine ⟨?_, ?_, ?_⟩
  · have e : Tb / Tc * log (Pc / 101325) / (1 - Tb / Tc) * (1 - Tc / Tb) = -log (Pc / 101325) := by
      have h3 : 1 - Tb / Tc = (Tc - Tb) / Tc := by field_simp
      have h4 : Tc - Tb ≠ 0 := (sub_pos.2 hbc).ne'
      rw [h3]
      field_simp
      ring
    rw [boilingCritical, e, exp_neg, exp_log (by positivity)]
    field_simp
  · simp [boilingCritical, div_self hc.ne']
  · intro T U hT hTU
    unfold boilingCritical
    refine mul_lt_mul_of_pos_left (exp_lt_exp.2 (mul_lt_mul_of_pos_left ?_ (by positivity))) hP0
    have : Tc / U < Tc / T := div_lt_div_of_pos_left hc hT hTU
    linarith

example : (0 : ℝ) < 373 ∧ (373 : ℝ) < 647 ∧ (101325 : ℝ) < 22000000 := by norm_num

/-- What evaluating the method `EOS` can give (`vapor_pressure.py` 510-515): the handler raises the number e of `math`, which is a `TypeError`. -/
inductive EosOut
  | value (P : ℝ)
  | noSolution
  | typeError

/-- What `PR(…).Psat` does. -/
inductive PsatResult
  | value (P : ℝ)
  | noSolution (tooLow : Bool)

/-- `vapor_pressure.py` 509-515. -/
def psatEos : PsatResult → EosOut
  | .value P => .value P
  | .noSolution tooLow => if tooLow then .value 0 else .typeError

/-- The exception of the equation of state never reaches the caller; below the range of the equation of state the vapour pressure is zero. -/
theorem C113_reraise_fails : psatEos (.noSolution false) = .typeError ∧ psatEos (.noSolution true) = .value 0 ∧ (∀ P, psatEos (.value P) = .value P) ∧ ∀ r, psatEos r ≠ .noSolution := by
  refine ⟨rfl, rfl, fun P => rfl, fun r => ?_⟩
  cases r with
  | value => simp [psatEos]
  | noSolution b => cases b <;> simp [psatEos]

/-! ## Limits of the PPDS9 viscosity equation -/

/-- The last step (`viscosity.py` 201-212): if the slope changes sign between the limits, one of them moves to the zero found by the solver. -/
def adjust (d : ℚ → ℚ) (root : ℚ → ℚ → ℚ) (low high : ℚ) : ℚ × ℚ :=
  if d low * d high < 0 then
    if 0 < d high then (low, root low high) else (root low high, high)
  else (low, high)

/-- `determine_PPDS9_limits` (`viscosity.py` 144-212) with the coefficients `C`, `D`, the slope `d` of the viscosity, whether it is infinite, and the solver. `none` is the `UnboundLocalError` at 181. -/
def ppds9 (C D : ℚ) (d : ℚ → ℚ) (inf : ℚ → Bool) (root : ℚ → ℚ → ℚ) (Tm Tc : Option ℚ) : Option (ℚ × ℚ) :=
  let low0 := min C D
  let high0 := max C D
  let straddle := 0 < high0 ∧ low0 < 0
  if ¬ straddle ∧ low0 ≤ 0 then none else
    let p := if straddle ∨ inf (low0 * (9995 / 10000)) ∨ inf (low0 * (10005 / 10000)) then (high0 / 10, high0 - 1) else (low0 + 5, high0 + 5)
    let falls := Tc.any fun t => decide (d t < 0)
    let low := Tm.getD p.1
    let high := if falls then Tc.getD 0 else p.2
    let low := if Tm.isSome ∧ falls ∧ low0 < 0 ∧ Tm.getD 0 < high0 ∧ high0 < Tc.getD 0 then high0 + 1 else low
    let high := if high = high0 then high - 1 else high
    some (adjust d root low high)

/-- The function fails precisely if neither coefficient is positive, or one of them is zero and the other is not negative. -/
theorem C113_ppds9_fails (C D : ℚ) (d : ℚ → ℚ) (inf : ℚ → Bool) (root : ℚ → ℚ → ℚ) (Tm Tc : Option ℚ) :
    ppds9 C D d inf root Tm Tc = none ↔ max C D ≤ 0 ∨ min C D = 0 := by
  unfold ppds9
  dsimp only
  have h := min_le_max (a := C) (b := D)
  split_ifs with hc
  · simp only [true_iff]
    obtain ⟨h1, h2⟩ := hc
    by_cases h3 : max C D ≤ 0
    · exact Or.inl h3
    · push Not at h3 h1
      exact Or.inr (le_antisymm h2 (h1 h3))
  · simp only [reduceCtorEq, false_iff]
    rintro (h3 | h3)
    · exact hc ⟨fun h4 => absurd h4.1 (not_lt.2 h3), h.trans h3⟩
    · exact hc ⟨fun h4 => absurd h4.2 (by rw [h3]; simp), h3.le⟩

theorem adjust_slopes {d : ℚ → ℚ} {root : ℚ → ℚ → ℚ} (hroot : ∀ a b, d a * d b < 0 → d (root a b) = 0) (a b : ℚ) : 0 ≤ d (adjust d root a b).1 * d (adjust d root a b).2 := by
  unfold adjust
  split_ifs with h1 h2
  · simp [hroot _ _ h1]
  · simp [hroot _ _ h1]
  · exact not_lt.1 h1

/-- With a solver that finds zeros, the slopes at the two limits are never of opposite sign. -/
theorem C113_ppds9_partial (C D : ℚ) (d : ℚ → ℚ) (inf : ℚ → Bool) (root : ℚ → ℚ → ℚ) (Tm Tc : Option ℚ) (hroot : ∀ a b, d a * d b < 0 → d (root a b) = 0) (lo hi : ℚ)
    (h : ppds9 C D d inf root Tm Tc = some (lo, hi)) : 0 ≤ d lo * d hi := by
  unfold ppds9 at h
  dsimp only at h
  split at h
  · simp at h
  · rw [Option.some.injEq] at h
    have := adjust_slopes hroot (d := d) (root := root)
    rw [show lo = (lo, hi).1 from rfl, show hi = (lo, hi).2 from rfl, ← h]
    exact this _ _

/-- When the viscosity falls at the melting and the critical point these are the limits, provided the coefficients have the same sign or the pole is not between the two. -/
theorem C113_ppds9_range (C D : ℚ) (d : ℚ → ℚ) (inf : ℚ → Bool) (root : ℚ → ℚ → ℚ) (Tm Tc : ℚ) (hm : d Tm < 0) (hc : d Tc < 0) (hne : Tc ≠ max C D) (hok : 0 < max C D) (hz : min C D ≠ 0)
    (hs : 0 < min C D ∨ ¬ (Tm < max C D ∧ max C D < Tc)) : ppds9 C D d inf root (some Tm) (some Tc) = some (Tm, Tc) := by
  have hn : ¬ (¬ (0 < max C D ∧ min C D < 0) ∧ min C D ≤ 0) := fun h => h.1 ⟨hok, lt_of_le_of_ne h.2 hz⟩
  have hq : ¬ (min C D < 0 ∧ Tm < max C D ∧ max C D < Tc) := by
    rintro ⟨h1, h2⟩
    rcases hs with h | h
    · exact absurd h1 (not_lt.2 h.le)
    · exact h h2
  unfold ppds9
  dsimp only
  rw [if_neg hn]
  simp only [Option.any_some, decide_eq_true_eq, hc, if_true, Option.getD_some, Option.isSome_some, true_and, hq, if_false, hne]
  rw [adjust, if_neg (not_lt.2 (mul_pos_of_neg_of_neg hm hc).le)]

/-- The limits can be in the wrong order, and the viscosity can rise at both. -/
theorem C113_ppds9_order_fails : (∃ d : ℚ → ℚ, (∀ t, d t < 0) ∧ ppds9 500 100 d (fun _ => false) (fun a _ => a) (some 600) none = some (600, 505)) ∧
    ∃ d : ℚ → ℚ, (∀ t, 0 < d t) ∧ ppds9 500 100 d (fun _ => false) (fun a _ => a) (some 200) (some 700) = some (200, 505) := by
  refine ⟨⟨fun _ => -1, fun _ => by norm_num, ?_⟩, ⟨fun _ => 1, fun _ => by norm_num, ?_⟩⟩ <;> (simp [ppds9, adjust]; try norm_num)

/-- One coefficient negative: from a tenth of the other up to one kelvin below it. -/
example : ppds9 600 (-50) (fun _ => -1) (fun _ => false) (fun a _ => a) none none = some (60, 599) ∧
    ppds9 600 (-50) (fun t => t - 300) (fun _ => false) (fun _ _ => 300) none none = some (60, 300) ∧
    ppds9 600 (-50) (fun _ => -1) (fun _ => false) (fun a _ => a) (some 200) (some 650) = some (601, 650) ∧
    ppds9 600 (-50) (fun _ => -1) (fun _ => false) (fun a _ => a) (some 200) (some 600) = some (200, 599) := by
  refine ⟨?_, ?_, ?_, ?_⟩ <;> (simp [ppds9, adjust]; try norm_num)

end Verif.PhaseChange
