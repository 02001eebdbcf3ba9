import Verif.Chem.Formation
import Mathlib.Analysis.SpecialFunctions.Log.Basic
import Mathlib.Analysis.SpecialFunctions.Log.Deriv

/-!
# Enthalpy and entropy of `Chemical` (`thermo/chemical.py` 795-813, 1316-1547)

* C109: reference states (`set_ref`), enthalpy and entropy by phase and reference phase (`calc_H`, `calc_S`, `calc_H_excess`, `calc_S_excess`), `set_thermo` and
  the memo of `calculate`.

Heat capacity integrals are those of `Verif.Formation`. Departures of the equation of state are arbitrary functions of temperature and pressure; that `eos.to_TP(T, P)` has a
liquid or gas root is assumed where its departure is read. The phase (`identify_phase` of `chemicals`) is an input.
-/

namespace Verif.RefState

open Verif.Formation MeasureTheory intervalIntegral Set

/-- What is read of a chemical: melting and boiling point, enthalpy of fusion, enthalpy of vaporization at the boiling point (`Hvap_Tbm`) and as a function of temperature
(`Hvapm`), heat capacities, gas constant, departures of liquid and gas. -/
structure Chem where
  (Tm Tb Hfus Hv : Option ℝ) (hvap : ℝ → ℝ) (c : Cps) (R : ℝ) (Hl Hg Sl Sg : ℝ → ℝ → ℝ)

/-- The reference state. -/
structure Ref where
  (T P H S : ℝ) (phase : Stp)

/-- The integrals stored by `set_ref`: of the liquid from melting to boiling, of the solid from the reference to melting, of the gas from boiling to the reference, of the
liquid from the reference to boiling and from melting to the reference. -/
structure Ints where
  (lTmTb sTrefTm gTbTref lTrefTb lTmTref : Option ℝ)

/-- Lines 1335-1344 with `K = I`, 1347-1356 with `K = J`; temperatures of zero, which count as missing, are left out. -/
noncomputable def setRef (K : (ℝ → ℝ) → ℝ → ℝ → ℝ) (x : Chem) (r : Ref) (old : Ints) : Ints where
  lTmTb := match r.phase, x.Tm, x.Tb with
    | .l, _, _ => old.lTmTb
    | _, some m, some b => some (K x.c.l m b)
    | _, _, _ => old.lTmTb
  sTrefTm := match r.phase, x.Tm with
    | .s, some m => some (K x.c.s r.T m)
    | _, _ => old.sTrefTm
  gTbTref := match r.phase, x.Tb with
    | .g, some b => some (K x.c.g b r.T)
    | _, _ => old.gTbTref
  lTrefTb := match r.phase, x.Tm, x.Tb with
    | .l, some _, some b => some (K x.c.l r.T b)
    | _, _, _ => old.lTrefTb
  lTmTref := match r.phase, x.Tm, x.Tb with
    | .l, some m, some _ => some (K x.c.l m r.T)
    | _, _, _ => old.lTmTref

/-- `calc_H` (1396-1427); `none` is `None`. -/
noncomputable def calcH (x : Chem) (r : Ref) (i : Ints) (p : Stp) (T : ℝ) : Option ℝ :=
  match r.phase, p with
  | .s, .s => some (r.H + I x.c.s r.T T)
  | .l, .l => some (r.H + I x.c.l r.T T)
  | .g, .g => some (r.H + I x.c.g r.T T)
  | .s, .l => do
    let a ← i.sTrefTm; let f ← x.Hfus; let m ← x.Tm
    return r.H + (a + f + I x.c.l m T)
  | .l, .s => do
    let a ← i.lTmTref; let f ← x.Hfus; let m ← x.Tm
    return r.H + (-a - f + I x.c.s m T)
  | .l, .g => do
    let a ← i.lTrefTb; let v ← x.Hv; let b ← x.Tb
    return r.H + (a + v + I x.c.g b T)
  | .g, .l => do
    let a ← i.gTbTref; let v ← x.Hv; let b ← x.Tb
    return r.H + (-a - v + I x.c.l b T)
  | .s, .g => do
    let a ← i.sTrefTm; let f ← x.Hfus; let e ← i.lTmTb; let v ← x.Hv; let b ← x.Tb
    return r.H + (a + f + e + v + I x.c.g b T)
  | .g, .s => do
    let a ← i.gTbTref; let v ← x.Hv; let e ← i.lTmTb; let f ← x.Hfus; let m ← x.Tm
    return r.H + (-a - v - e - f + I x.c.s m T)

/-- `calc_S` (1469-1503). -/
noncomputable def calcS (x : Chem) (r : Ref) (i : Ints) (p : Stp) (T P : ℝ) : Option ℝ :=
  match r.phase, p with
  | .s, .s => some (r.S + J x.c.s r.T T)
  | .l, .l => some (r.S + J x.c.l r.T T + -x.R * Real.log (P / r.P))
  | .g, .g => some (r.S + J x.c.g r.T T + -x.R * Real.log (P / r.P))
  | .s, .l => do
    let a ← i.sTrefTm; let f ← x.Hfus; let m ← x.Tm
    return r.S + (a + f / m + J x.c.l m T)
  | .l, .s => do
    let a ← i.lTmTref; let f ← x.Hfus; let m ← x.Tm
    return r.S + (-a - f / m + J x.c.s m T)
  | .l, .g => do
    let a ← i.lTrefTb; let v ← x.Hv; let b ← x.Tb
    return r.S + (a + v / b + J x.c.g b T - x.R * Real.log (P / r.P))
  | .g, .l => do
    let a ← i.gTbTref; let b ← x.Tb
    return r.S + (-a - x.hvap T / b + J x.c.l b T)
  | .s, .g => do
    let a ← i.sTrefTm; let f ← x.Hfus; let m ← x.Tm; let e ← i.lTmTb; let v ← x.Hv; let b ← x.Tb
    return r.S + (a + f / m + e + v / b + J x.c.g b T)
  | .g, .s => do
    let a ← i.gTbTref; let v ← x.Hv; let b ← x.Tb; let e ← i.lTmTb; let f ← x.Hfus; let m ← x.Tm
    return r.S + (-a - v / b - e - f / m + J x.c.s m T)

/-- The pressure of the boiling point (1372, 1376, 1531). -/
noncomputable def Pb : ℝ := 101325

/-- `calc_H_excess` (1429-1447) with `l = Hl`, `g = Hg`; `calc_S_excess` (1449-1467) with `l = Sl`, `g = Sg`. The values stored in 1361-1385 are written out. -/
noncomputable def excess (l g : ℝ → ℝ → ℝ) (r : Ref) (b : ℝ) (p : Stp) (T P : ℝ) : ℝ :=
  match r.phase, p with
  | .g, .g => g T P - g r.T r.P
  | .l, .l => l T P - l T Pb
  | .g, .l => (g b Pb - g b r.P) + (l T P - l T Pb)
  | .l, .g => (l r.T Pb - l r.T r.P) + (g T P - g b Pb)
  | _, _ => 0

/-! ### What is expected -/

/-- Enthalpy of a phase at `T`, counted from the solid at the melting point, along the path through melting and boiling. -/
noncomputable def pathH (m b f v : ℝ) (c : Cps) (T : ℝ) : Stp → ℝ
  | .s => ∫ t in m..T, c.s t
  | .l => f + ∫ t in m..T, c.l t
  | .g => f + (∫ t in m..b, c.l t) + v + ∫ t in b..T, c.g t

/-- Entropy of a phase at `T`, counted from the solid at the melting point. -/
noncomputable def pathS (m b f v : ℝ) (c : Cps) (T : ℝ) : Stp → ℝ
  | .s => ∫ t in m..T, c.s t / t
  | .l => f / m + ∫ t in m..T, c.l t / t
  | .g => f / m + (∫ t in m..b, c.l t / t) + v / b + ∫ t in b..T, c.g t / t

/-- All data are present and positive, heat capacities continuous. -/
structure Full (x : Chem) (m b f v : ℝ) : Prop where
  Tm : x.Tm = some m
  Tb : x.Tb = some b
  Hfus : x.Hfus = some f
  Hv : x.Hv = some v
  m0 : 0 < m
  b0 : 0 < b
  c : x.c.Cont

section

variable {x : Chem} {m b f v : ℝ} (h : Full x m b f v) (r : Ref) (hr : 0 < r.T) (old : Ints) {T : ℝ} (hT : 0 < T)

include h hr hT

/-- **C109.** After `set_ref`, whatever was stored before, the enthalpy differs from the reference value by the difference of a function of phase and temperature between state
and reference: heat capacities of the phases, fusion and vaporization, for all nine pairs of phase and reference phase. So enthalpy differences do not depend on the reference. -/
theorem C109_enthalpy (p : Stp) : calcH x r (setRef I x r old) p T = some (r.H + pathH m b f v x.c T p - pathH m b f v x.c r.T r.phase) := by
  have hl := h.c.l; have hs := h.c.s; have hg := h.c.g
  have e1 := I_add hs h.m0 hr hT
  have e2 := I_add hl h.m0 hr hT
  have e3 := I_add hg h.b0 hr hT
  have e4 := I_add hl h.m0 h.b0 hT
  have e5 := I_add hl h.m0 hr h.b0
  have e6 : I x.c.s r.T m + I x.c.s m r.T = 0 := by rw [I_add hs hr h.m0 hr, I_same]
  obtain ⟨Tr, Pr, Hr, Sr, ph⟩ := r
  rcases ph with _ | _ | _ <;> rcases p with _ | _ | _ <;>
    simp only [calcH, setRef, h.Tm, h.Tb, h.Hfus, h.Hv, Option.bind_eq_bind, Option.bind_some, Option.pure_def, pathH, Option.some.injEq] <;>
    (simp only [I] at *; linarith)

/-- **C109, partial.** The entropy differs from the reference value by the difference of a function of phase and temperature, and the pressure term of an ideal gas if phase and
reference phase are the same fluid phase or gas from liquid. For a liquid from a gas the enthalpy of vaporization at the temperature would have to be that at the boiling
point. Missing: see `C109_vaporization_fails`, `C109_pressure_fails`. -/
theorem C109_entropy_partial (p : Stp) (P : ℝ) (hv : r.phase = .g → p = .l → x.hvap T = v) :
    calcS x r (setRef J x r old) p T P = some (r.S + pathS m b f v x.c T p - pathS m b f v x.c r.T r.phase
      - if (r.phase = .l ∧ p ≠ .s) ∨ (r.phase = .g ∧ p = .g) then x.R * Real.log (P / r.P) else 0) := by
  have hl := h.c.l; have hs := h.c.s; have hg := h.c.g
  have e1 := J_add hs h.m0 hr hT
  have e2 := J_add hl h.m0 hr hT
  have e3 := J_add hg h.b0 hr hT
  have e4 := J_add hl h.m0 h.b0 hT
  have e5 := J_add hl h.m0 hr h.b0
  have e6 : J x.c.s r.T m + J x.c.s m r.T = 0 := by rw [J_add hs hr h.m0 hr, J_same]
  obtain ⟨Tr, Pr, Hr, Sr, ph⟩ := r
  rcases ph with _ | _ | _ <;> rcases p with _ | _ | _ <;>
    simp [calcS, setRef, h.Tm, h.Tb, h.Hfus, h.Hv, pathS] <;>
    first
    | (simp only [J] at *; linarith)
    | (have hv' := hv rfl rfl; rw [hv']; simp only [J] at *; linarith)

/-- **C109 fails.** The entropy of a liquid counted from a gas has the enthalpy of vaporization at the temperature of the liquid instead of that at the boiling point. -/
theorem C109_vaporization_fails (P : ℝ) (hg : r.phase = .g) :
    calcS x r (setRef J x r old) .l T P = some (r.S + pathS m b f v x.c T .l - pathS m b f v x.c r.T .g - (x.hvap T - v) / b) := by
  have hl := h.c.l
  have e4 := J_add hl h.m0 h.b0 hT
  have e3 := J_add h.c.g h.b0 hr hT
  obtain ⟨Tr, Pr, Hr, Sr, ph⟩ := r
  subst hg
  simp only [calcS, setRef, h.Tm, h.Tb, Option.bind_eq_bind, Option.bind_some, Option.pure_def, pathS, Option.some.injEq]
  simp only [J] at *
  rw [sub_div]
  linarith

/-- **C109 fails.** The entropy of a gas counted from a solid does not depend on the pressure, nor does that of a liquid counted from a gas, while the gas counted from the gas
has the term `-R log(P/P_ref)`: between pressures the same states have different entropy differences depending on the reference. -/
theorem C109_pressure_fails (i : Ints) (P P' : ℝ) (hR : x.R ≠ 0) (hP : 0 < P) (hP' : 0 < P') (hPr : 0 < r.P) (hne : P ≠ P') :
    (r.phase = .s → calcS x r i .g T P = calcS x r i .g T P') ∧ (r.phase = .g → calcS x r i .l T P = calcS x r i .l T P')
    ∧ (r.phase = .g → calcS x r i .g T P ≠ calcS x r i .g T P') := by
  obtain ⟨Tr, Pr, Hr, Sr, ph⟩ := r
  refine ⟨?_, ?_, ?_⟩
  · rintro rfl; rfl
  · rintro rfl; rfl
  · rintro rfl hh
    simp only [calcS, Option.some.injEq] at hh
    have h1 : Real.log (P / Pr) = Real.log (P' / Pr) := by
      have : -x.R * Real.log (P / Pr) = -x.R * Real.log (P' / Pr) := by linarith
      exact mul_left_cancel₀ (neg_ne_zero.2 hR) this
    have h2 := Real.log_injOn_pos (show P / Pr ∈ Ioi 0 from div_pos hP hPr) (show P' / Pr ∈ Ioi 0 from div_pos hP' hPr) h1
    exact hne (by field_simp at h2; exact h2)

end

/-- Water, about; heat capacities constant, departures vanish for the gas. -/
noncomputable def water : Chem :=
  ⟨some 273, some 373, some 6010, some 40660, fun T => 40660 + 40 * (373 - T), ⟨fun _ => 37, fun _ => 75, fun _ => 34⟩, 8.3, fun _ P => -45000 + P / 10 ^ 5,
    fun _ _ => 0, fun _ _ => -120, fun _ _ => 0⟩

theorem water_full : Full water 273 373 6010 40660 :=
  ⟨rfl, rfl, rfl, rfl, by norm_num, by norm_num, ⟨continuousOn_const, continuousOn_const, continuousOn_const⟩⟩

/-- The premises are met, with a gas as reference and a liquid as state. -/
example : Full water 273 373 6010 40660 ∧ (0 : ℝ) < (⟨298, 101325, 0, 0, .g⟩ : Ref).T ∧ water.hvap 298 ≠ 40660 ∧ water.hvap 373 = 40660 :=
  ⟨water_full, by norm_num, by norm_num [water], by norm_num [water]⟩

/-- **C109.** Derivatives by temperature: the heat capacity of the phase for the enthalpy, that over the temperature for the path entropy, whatever the reference. -/
theorem C109_derivative {x : Chem} {m b f v : ℝ} (h : Full x m b f v) (r : Ref) (hr : 0 < r.T) (old : Ints) {T : ℝ} (hT : 0 < T) (p : Stp) :
    HasDerivAt (fun t => (calcH x r (setRef I x r old) p t).getD 0) (match p with | .s => x.c.s T | .l => x.c.l T | .g => x.c.g T) T
    ∧ HasDerivAt (fun t => pathS m b f v x.c t p) ((match p with | .s => x.c.s T | .l => x.c.l T | .g => x.c.g T) / T) T := by
  constructor
  · have e : (fun t => (calcH x r (setRef I x r old) p t).getD 0) =ᶠ[nhds T] fun t => r.H + pathH m b f v x.c t p - pathH m b f v x.c r.T r.phase := by
      filter_upwards [Ioi_mem_nhds hT] with t ht
      rw [C109_enthalpy h r hr old ht p]; rfl
    refine HasDerivAt.congr_of_eventuallyEq ?_ e
    rcases p with _ | _ | _
    · exact ((I_deriv h.c.s h.m0 hT).const_add r.H).sub_const _
    · exact (((I_deriv h.c.l h.m0 hT).const_add f).const_add r.H).sub_const _
    · exact (((I_deriv h.c.g h.b0 hT).const_add _).const_add r.H).sub_const _
  · rcases p with _ | _ | _
    · exact J_deriv h.c.s h.m0 hT
    · exact (J_deriv h.c.l h.m0 hT).const_add _
    · exact (J_deriv h.c.g h.b0 hT).const_add _

/-- **C109.** Liquid and gas at the boiling point differ by the enthalpy of vaporization, liquid and solid at the melting point by that of fusion, whatever the reference. The path
entropies differ by these over the temperatures, so the Gibbs energies are equal. -/
theorem C109_transitions {x : Chem} {m b f v : ℝ} (h : Full x m b f v) (r : Ref) (hr : 0 < r.T) (old : Ints) :
    (∃ g l, calcH x r (setRef I x r old) .g b = some g ∧ calcH x r (setRef I x r old) .l b = some l ∧ g - l = v)
    ∧ (∃ l s, calcH x r (setRef I x r old) .l m = some l ∧ calcH x r (setRef I x r old) .s m = some s ∧ l - s = f)
    ∧ pathH m b f v x.c b .g - b * pathS m b f v x.c b .g = pathH m b f v x.c b .l - b * pathS m b f v x.c b .l
    ∧ pathH m b f v x.c m .l - m * pathS m b f v x.c m .l = pathH m b f v x.c m .s - m * pathS m b f v x.c m .s := by
  have hm := h.m0; have hb := h.b0
  refine ⟨⟨_, _, C109_enthalpy h r hr old hb .g, C109_enthalpy h r hr old hb .l, ?_⟩, ⟨_, _, C109_enthalpy h r hr old hm .l, C109_enthalpy h r hr old hm .s, ?_⟩, ?_, ?_⟩
  · simp only [pathH, integral_same]; ring
  · simp only [pathH, integral_same]; ring
  · simp only [pathH, pathS, integral_same]; field_simp; ring
  · simp only [pathH, pathS, integral_same]; field_simp; ring

/-! ### Departures -/

/-- Enthalpy (or, with entropies and pressure term, entropy) of a real fluid phase: of the path at the boiling point pressure plus departures, the liquid by its change with pressure,
the gas by its departure from that at the boiling point. -/
noncomputable def real (path : Stp → ℝ) (l g : ℝ → ℝ → ℝ) (b T P : ℝ) : Stp → ℝ
  | .s => path .s
  | .l => path .l + (l T P - l T Pb)
  | .g => path .g + (g T P - g b Pb)

/-- **C109.** A solid has no departure, nor has any phase with respect to a solid. -/
theorem C109_excess_solid (l g : ℝ → ℝ → ℝ) (r : Ref) (b T P : ℝ) (p : Stp) (h : r.phase = .s ∨ p = .s) : excess l g r b p T P = 0 := by
  unfold excess
  obtain ⟨_, _, _, _, ph⟩ := r
  rcases ph with _ | _ | _ <;> rcases p with _ | _ | _ <;> simp_all

example : excess (fun T _ => T) (fun T P => T * P) ⟨298, 101325, 0, 0, .g⟩ 373 .s 250 101325 = 0 := C109_excess_solid _ _ _ _ _ _ _ (Or.inr rfl)

/-- **C109, partial.** With departures the enthalpy is that of the real fluid up to a constant, if the reference is a gas and the state a gas, or the reference a liquid at 101325 Pa.
At the reference state the reference value results. Missing: other references, see `C109_liquid_reference_fails` and `C109_gas_reference_fails`. -/
theorem C109_excess_partial {x : Chem} {m b f v : ℝ} (h : Full x m b f v) (r : Ref) (hr : 0 < r.T) (old : Ints) {T : ℝ} (hT : 0 < T) (P : ℝ) (p : Stp)
    (hp : (r.phase = .g ∧ p = .g) ∨ (r.phase = .l ∧ r.P = Pb ∧ p ≠ .s)) :
    (calcH x r (setRef I x r old) p T).map (· + excess x.Hl x.Hg r b p T P)
      = some (r.H + real (pathH m b f v x.c T) x.Hl x.Hg b T P p - real (pathH m b f v x.c r.T) x.Hl x.Hg b r.T r.P r.phase)
    ∧ (calcS x r (setRef J x r old) p T P).map (· + excess x.Sl x.Sg r b p T P)
      = some (r.S + real (pathS m b f v x.c T) x.Sl x.Sg b T P p - real (pathS m b f v x.c r.T) x.Sl x.Sg b r.T r.P r.phase - x.R * Real.log (P / r.P)) := by
  rw [C109_enthalpy h r hr old hT p]
  obtain ⟨Tr, Pr, Hr, Sr, ph⟩ := r
  rcases hp with ⟨h1, h2⟩ | ⟨h1, h2, h3⟩
  · dsimp only at h1; subst h1; subst h2
    rw [C109_entropy_partial h ⟨Tr, Pr, Hr, Sr, .g⟩ hr old hT .g P (by intro _ hc; cases hc)]
    simp only [Option.map_some, Option.some.injEq, excess, real]
    constructor
    · ring
    · simp; ring
  · dsimp only at h1 h2; subst h1; subst h2
    rcases p with _ | _ | _
    · exact absurd rfl h3
    · rw [C109_entropy_partial h ⟨Tr, Pb, Hr, Sr, .l⟩ hr old hT .l P (by intro hc; cases hc)]
      simp only [Option.map_some, Option.some.injEq, excess, real]
      constructor
      · ring
      · simp; ring
    · rw [C109_entropy_partial h ⟨Tr, Pb, Hr, Sr, .l⟩ hr old hT .g P (by intro hc; cases hc)]
      simp only [Option.map_some, Option.some.injEq, excess, real]
      constructor
      · ring
      · simp; ring

example : (⟨298, 101325, 0, 0, .l⟩ : Ref).P = Pb ∧ (Stp.g ≠ .s) := ⟨rfl, by decide⟩

/-- **C109.** With a liquid at 101325 Pa as reference, as for all chemicals liquid at 25 °C, liquid and gas have the same Gibbs energy at the boiling point and 101325 Pa. -/
theorem C109_boiling {x : Chem} {m b f v : ℝ} (h : Full x m b f v) (r : Ref) (hr : 0 < r.T) (old : Ints) (hl : r.phase = .l) (hP : r.P = Pb) :
    ∃ Hl Hg Sl Sg, (calcH x r (setRef I x r old) .l b).map (· + excess x.Hl x.Hg r b .l b Pb) = some Hl
      ∧ (calcH x r (setRef I x r old) .g b).map (· + excess x.Hl x.Hg r b .g b Pb) = some Hg
      ∧ (calcS x r (setRef J x r old) .l b Pb).map (· + excess x.Sl x.Sg r b .l b Pb) = some Sl
      ∧ (calcS x r (setRef J x r old) .g b Pb).map (· + excess x.Sl x.Sg r b .g b Pb) = some Sg
      ∧ Hg - Hl = v ∧ Hg - b * Sg = Hl - b * Sl := by
  have hb := h.b0
  have h1 := C109_excess_partial h r hr old hb Pb .l (Or.inr ⟨hl, hP, by decide⟩)
  have h2 := C109_excess_partial h r hr old hb Pb .g (Or.inr ⟨hl, hP, by decide⟩)
  refine ⟨_, _, _, _, h1.1, h2.1, h1.2, h2.2, ?_, ?_⟩
  · simp only [real, pathH, integral_same]; ring
  · simp only [real, pathH, pathS, integral_same]; field_simp; ring

example : (0 : ℝ) < (⟨298, 101325, 0, 0, .l⟩ : Ref).T ∧ (⟨298, 101325, 0, 0, .l⟩ : Ref).phase = .l := ⟨by norm_num, rfl⟩

/-- **C109 fails.** With a liquid reference at another pressure the liquid at the reference state does not have the reference enthalpy: the departure of the reference is left out,
though it is not for the gas. -/
theorem C109_liquid_reference_fails {x : Chem} (r : Ref) (old : Ints) (b : ℝ) (hl : r.phase = .l) :
    (calcH x r (setRef I x r old) .l r.T).map (· + excess x.Hl x.Hg r b .l r.T r.P) = some (r.H + (x.Hl r.T r.P - x.Hl r.T Pb)) := by
  obtain ⟨Tr, Pr, Hr, Sr, ph⟩ := r
  dsimp only at hl; subst hl
  simp [calcH, excess]

example : water.Hl 298 (10 * Pb) ≠ water.Hl 298 Pb := by norm_num [water, Pb]

/-- **C109 fails.** With a gas as reference, enthalpies of gas and liquid at the boiling point and 101325 Pa do not differ by the enthalpy of vaporization but by the departure of the gas at the
boiling point from that at the reference besides. -/
theorem C109_gas_reference_fails {x : Chem} {m b f v : ℝ} (h : Full x m b f v) (r : Ref) (hr : 0 < r.T) (old : Ints) (hg : r.phase = .g) :
    ∃ Hl Hg, (calcH x r (setRef I x r old) .l b).map (· + excess x.Hl x.Hg r b .l b Pb) = some Hl
      ∧ (calcH x r (setRef I x r old) .g b).map (· + excess x.Hl x.Hg r b .g b Pb) = some Hg
      ∧ Hg - Hl = v + (x.Hg b r.P - x.Hg r.T r.P) := by
  rw [C109_enthalpy h r hr old h.b0 .l, C109_enthalpy h r hr old h.b0 .g]
  obtain ⟨Tr, Pr, Hr, Sr, ph⟩ := r
  dsimp only at hg; subst hg
  refine ⟨_, _, rfl, rfl, ?_⟩
  simp only [excess, pathH, integral_same]
  ring

example : Full { water with Hg := fun T P => -P / T } 273 373 6010 40660 ∧ (-101325 : ℝ) / 373 - -101325 / 298 ≠ 0 :=
  ⟨⟨rfl, rfl, rfl, rfl, by norm_num, by norm_num, ⟨continuousOn_const, continuousOn_const, continuousOn_const⟩⟩, by norm_num⟩

/-- **C109 fails.** Without a melting point, which the path does not need, gas enthalpies from a liquid reference are not available on a new object. -/
theorem C109_melting_fails (x : Chem) (r : Ref) (T b : ℝ) (hm : x.Tm = none) (hb : x.Tb = some b) (hl : r.phase = .l) (p : Stp) (hp : p = .g) :
    calcH x r (setRef I x r ⟨none, none, none, none, none⟩) p T = none := by
  obtain ⟨Tr, Pr, Hr, Sr, ph⟩ := r
  dsimp only at hl; subst hl; subst hp
  simp [calcH, setRef, hm]

/-! ### `set_thermo` (1529-1547) -/

/-- The attributes written. -/
structure Props where
  (Hm H Sm S G Gm : Option ℝ)

/-- `set_thermo` (1529-1547): `eH`, `eS` are the excess properties, `none` if they raise an exception; the first statement may raise one too (`root = false`). An
exception leaves the remaining attributes as they were; adding to `None` is one. Mass properties are molar ones times `k`. -/
noncomputable def setThermo (root : Bool) (k T : ℝ) (cH eH cS eS : Option ℝ) (o : Props) : Props :=
  if root = false then o
  else match cH, eH with
    | none, _ => { o with Hm := none }
    | some h, none => { o with Hm := some h }
    | some h, some e =>
      let H := h + e
      match cS, eS with
      | none, _ => { o with Hm := some H, H := some (k * H), Sm := none }
      | some s, none => { o with Hm := some H, H := some (k * H), Sm := some s }
      | some s, some e' =>
        let S := s + e'
        ⟨some H, some (k * H), some S, some (k * S), some (k * H - T * (k * S)), some (H - T * S)⟩

/-- **C109, partial.** If all parts are available the attributes are those of the state, whatever they were before, and the Gibbs energies are consistent. Missing: failures, see
`C109_stale_fails`. -/
theorem C109_thermo_partial (k T h e s e' : ℝ) (o o' : Props) :
    setThermo true k T (some h) (some e) (some s) (some e') o = setThermo true k T (some h) (some e) (some s) (some e') o'
    ∧ ∃ p : Props, setThermo true k T (some h) (some e) (some s) (some e') o = p ∧ p.Hm = some (h + e) ∧ p.Sm = some (s + e')
      ∧ p.Gm = some ((h + e) - T * (s + e')) ∧ p.G = some (k * ((h + e) - T * (s + e'))) ∧ p.H = some (k * (h + e)) ∧ p.S = some (k * (s + e')) := by
  refine ⟨rfl, _, rfl, rfl, rfl, rfl, ?_, rfl, rfl⟩
  simp only [setThermo, Bool.true_eq_false, if_false, Option.some.injEq]
  ring

/-- **C109 fails.** If the enthalpy is not available at a state, the molar enthalpy is reset but enthalpy, entropies and Gibbs energies remain those of the state before; if the departure
cannot be computed, the molar enthalpy is that without it. -/
theorem C109_stale_fails (k T : ℝ) (eH cS eS : Option ℝ) (o : Props) (h : ℝ) :
    (setThermo true k T none eH cS eS o).Hm = none ∧ (setThermo true k T none eH cS eS o).H = o.H ∧ (setThermo true k T none eH cS eS o).Gm = o.Gm
    ∧ (setThermo true k T none eH cS eS o).Sm = o.Sm ∧ (setThermo true k T (some h) none cS eS o).Hm = some h ∧ (setThermo true k T (some h) none cS eS o).H = o.H
    ∧ setThermo false k T (some h) eH cS eS o = o := ⟨rfl, rfl, rfl, rfl, rfl, rfl, rfl⟩

/-! ### The memo of `calculate` (795-813) -/

/-- Attributes of an object: `T` and `P` as set, and the state and reference its properties were last computed for. -/
structure Obj where
  (T P : ℝ) (ref : Ref) (at_ : ℝ × ℝ × Ref)

open Classical in
/-- `calculate(T, P)` (795-813) with automatic calculation; the flag says whether a `ValueError` was raised. -/
noncomputable def calculate (o : Obj) (T P : Option ℝ) : Obj × Bool :=
  if T = some o.T ∧ P = some o.P then (o, false)
  else
    match T with
    | some t =>
      if t ≠ 0 ∧ t < 0 then (o, true)
      else
        let o1 := if t ≠ 0 then { o with T := t } else o
        match P with
        | some p =>
          if p ≠ 0 ∧ p < 0 then (o1, true)
          else
            let o2 := if p ≠ 0 then { o1 with P := p } else o1
            ({ o2 with at_ := (o2.T, o2.P, o2.ref) }, false)
        | none => ({ o1 with at_ := (o1.T, o1.P, o1.ref) }, false)
    | none =>
      match P with
      | some p =>
        if p ≠ 0 ∧ p < 0 then (o, true)
        else
          let o2 := if p ≠ 0 then { o with P := p } else o
          ({ o2 with at_ := (o2.T, o2.P, o2.ref) }, false)
      | none => ({ o with at_ := (o.T, o.P, o.ref) }, false)

/-- The properties are those of the state shown. -/
def Obj.Current (o : Obj) : Prop := o.at_ = (o.T, o.P, o.ref)

/-- **C109, partial.** On an object whose properties are current, `calculate` at positive temperature and pressure makes them current at the state asked for. Missing: objects that are not current, see
`C109_memo_fails`. -/
theorem C109_calculate_partial (o : Obj) (T P : ℝ) (hT : 0 < T) (hP : 0 < P) (h : o.Current) :
    (calculate o (some T) (some P)).1.Current ∧ (calculate o (some T) (some P)).1.T = T ∧ (calculate o (some T) (some P)).1.P = P
    ∧ (calculate o (some T) (some P)).2 = false ∧ (calculate o (some T) none).1.Current ∧ (calculate o (some T) none).1.T = T ∧ (calculate o (some T) none).1.P = o.P := by
  unfold calculate
  refine ⟨?_, ?_, ?_, ?_, ?_, ?_, ?_⟩
  all_goals
    by_cases hh : T = o.T ∧ P = o.P
    all_goals simp [hh, hT.ne', hP.ne', not_lt.2 hT.le, not_lt.2 hP.le, Obj.Current]
    all_goals first | exact h | (obtain ⟨h1, h2⟩ := hh; subst h1; subst h2; simp_all [not_lt.2 hT.le, hT.ne']) | skip

example : (⟨298, 101325, ⟨298, 101325, 0, 0, .l⟩, (298, 101325, ⟨298, 101325, 0, 0, .l⟩)⟩ : Obj).Current := rfl

/-- A new reference state, `set_ref` (1317-1322). -/
def newRef (o : Obj) (r : Ref) : Obj := { o with ref := r }

/-- **C109 fails.** After a call refused for its pressure the temperature has changed and the properties have not; the next call at that temperature and the pressure before finds
nothing to do and leaves them so. After a change of the reference a call at the same state does nothing either. A temperature of zero is ignored. -/
theorem C109_memo_fails (o : Obj) (T P : ℝ) (hT : 0 < T) (hP : P < 0) (h : o.Current) (hne : T ≠ o.T) (r : Ref) (hr : r ≠ o.ref) :
    (calculate o (some T) (some P)).2 = true
    ∧ ¬ (calculate (calculate o (some T) (some P)).1 (some T) (some o.P)).1.Current ∧ (calculate (calculate o (some T) (some P)).1 (some T) (some o.P)).1.T = T
    ∧ ¬ (calculate (newRef o r) (some o.T) (some o.P)).1.Current
    ∧ (o.T ≠ 0 → (calculate o (some 0) none).1.T = o.T ∧ (calculate o (some 0) none).2 = false) := by
  have e : calculate o (some T) (some P) = ({ o with T := T }, true) := by
    unfold calculate
    rw [if_neg (by simp [hne])]
    simp [hT.ne', hP.ne, hP, not_lt.2 hT.le]
  have e2 : calculate { o with T := T } (some T) (some o.P) = ({ o with T := T }, false) := by
    unfold calculate; rw [if_pos ⟨rfl, rfl⟩]
  have e3 : calculate (newRef o r) (some o.T) (some o.P) = (newRef o r, false) := by
    unfold calculate newRef; rw [if_pos ⟨rfl, rfl⟩]
  have hc : o.at_ = (o.T, o.P, o.ref) := h
  refine ⟨by rw [e], ?_, by rw [e, e2], ?_, fun h0 => ?_⟩
  · rw [e, e2]
    intro hh
    have : o.at_ = (T, o.P, o.ref) := hh
    rw [hc] at this
    exact hne (congrArg Prod.fst this).symm
  · rw [e3]
    intro hh
    have : o.at_ = (o.T, o.P, r) := hh
    rw [hc] at this
    exact hr (congrArg (·.2.2) this).symm
  · unfold calculate
    simp

example : (⟨298, 101325, ⟨298, 101325, 0, 0, .l⟩, (298, 101325, ⟨298, 101325, 0, 0, .l⟩)⟩ : Obj).Current ∧ (⟨298, 101325, 7, 0, .l⟩ : Ref) ≠ ⟨298, 101325, 0, 0, .l⟩ :=
  ⟨rfl, by simp⟩

/-! ### Energies (1550-1607) -/

/-- `Um`, `Am` (1550-1605): internal and Helmholtz energy from those available; a volume of zero counts as missing. -/
noncomputable def internal (H V : Option ℝ) (P : ℝ) : Option ℝ :=
  match H, V with
  | some h, some v => if v = 0 then none else some (h - P * v)
  | _, _ => none

/-- `Am` (1574-1583). -/
noncomputable def helmholtz (U S : Option ℝ) (T : ℝ) : Option ℝ :=
  match U, S with
  | some u, some s => some (u - T * s)
  | _, _ => none

/-- **C109.** The energies obey `G - A = P V` and `H - U = P V`, at states where all are available. -/
theorem C109_energies (k T h e s e' V P : ℝ) (hV : V ≠ 0) (o : Props) :
    ∃ U A G, internal (setThermo true k T (some h) (some e) (some s) (some e') o).Hm (some V) P = some U
      ∧ helmholtz (some U) (setThermo true k T (some h) (some e) (some s) (some e') o).Sm T = some A
      ∧ (setThermo true k T (some h) (some e) (some s) (some e') o).Gm = some G ∧ G - A = P * V ∧ (h + e) - U = P * V := by
  refine ⟨h + e - P * V, h + e - P * V - T * (s + e'), h + e - T * (s + e'), ?_, rfl, rfl, by ring, by ring⟩
  simp [internal, setThermo, hV]

end Verif.RefState
