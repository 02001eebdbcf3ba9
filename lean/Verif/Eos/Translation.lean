import Verif.Eos.Departure
import Mathlib.Tactic.LinearCombination

/-!
# C36: volume translation

`thermo/eos.py`: constants of `PRTranslated` (8161-8166, the same in `PRTranslatedPPJP` 8251-8255), `SRKTranslated`
(10135-10143, the same in `MSRKTranslated` 10259-10263, `SRKTranslatedPPJP` 10404-10407, `SRKTranslatedConsistent`
10523-10527), of `PR` (7490-7493) and `SRK`; `MSRKTranslated.estimate_MN` (10319-10320) given the two saturation
temperatures.
-/

namespace Verif.Translation

open Verif.Cubic Verif.Departure

/-- The three constants of a cubic equation. -/
structure Consts where
  /-- covolume -/
  b : ℝ
  /-- linear coefficient -/
  delta : ℝ
  /-- constant coefficient -/
  epsilon : ℝ

/-- `PR.__init__` (7490-7493). -/
def pr (b : ℝ) : Consts := ⟨b, 2 * b, -b * b⟩
/-- `SRK.__init__`: `delta = b`, `epsilon = 0`. -/
def srk (b : ℝ) : Consts := ⟨b, b, 0⟩
/-- `PRTranslated.__init__` (8161-8166). -/
def prTranslated (b0 c : ℝ) : Consts := ⟨b0 - c, 2 * (c + b0), -b0 * b0 + c * c + 2 * c * b0⟩
/-- `SRKTranslated.__init__` (10135-10143). -/
def srkTranslated (b0 c : ℝ) : Consts := ⟨b0 - c, c + c + b0, c * (b0 + c)⟩

/-- A fluid with these constants. -/
def Consts.fluid (k : Consts) (R : ℝ) (a a1 a2 a3 : ℝ → ℝ) : Fluid := ⟨R, k.b, k.delta, k.epsilon, a, a1, a2, a3⟩

/-- The relation between constants that makes `k'` the equation `k` shifted by `c`. -/
def Shifted (k k' : Consts) (c : ℝ) : Prop :=
  ∀ V : ℝ, V - k'.b = V + c - k.b ∧ V ^ 2 + k'.delta * V + k'.epsilon = (V + c) ^ 2 + k.delta * (V + c) + k.epsilon

/-- **C36.** Both translated families are the untranslated equation at `V + c`, term by term: repulsive volume and
attractive denominator. -/
theorem C36_constants (b0 c : ℝ) :
    Shifted (pr b0) (prTranslated b0 c) c ∧ Shifted (srk b0) (srkTranslated b0 c) c := by
  constructor <;> intro V <;> constructor <;>
    simp only [pr, prTranslated, srk, srkTranslated] <;> ring

variable {k k' : Consts} {c R T P V : ℝ} {a a1 a2 a3 : ℝ → ℝ}

/-- **C36.** Pressure: the translated equation at `V` is the untranslated one at `V + c`. -/
theorem C36_pressure (h : Shifted k k' c) (T V : ℝ) :
    (k'.fluid R a a1 a2 a3).p T V = (k.fluid R a a1 a2 a3).p T (V + c) := by
  obtain ⟨h1, h2⟩ := h V
  simp only [Fluid.p, pressure, Consts.fluid]
  rw [h1, h2]

/-- Water-like numbers: the shift moves the volume at which a pressure is found. -/
example : ((prTranslated 2 1).fluid 1 (fun _ => 3) 0 0 0).p 5 9 = ((pr 2).fluid 1 (fun _ => 3) 0 0 0).p 5 10 := by
  have := C36_pressure (R := 1) (a := fun _ => 3) (a1 := 0) (a2 := 0) (a3 := 0) (C36_constants 2 1).1 5 9
  norm_num at this
  exact this

theorem shift_eqs (h : Shifted k k' c) : k'.b = k.b - c ∧ k'.delta = k.delta + 2 * c
    ∧ k'.epsilon = k.epsilon + k.delta * c + c ^ 2 := by
  have h0 := h 0
  have h1 := h 1
  refine ⟨by linarith [h0.1], ?_, ?_⟩
  · nlinarith [h0.2, h1.2]
  · nlinarith [h0.2]

/-- **C36.** All roots of the compressibility cubic, with multiplicity and also the complex ones, shift by
`c P / (R T)`. -/
theorem C36_roots (h : Shifted k k' c) {R T P : ℝ} (hRT : R * T ≠ 0) (aT : ℝ) (z : ℂ) :
    poly (coefB (R : ℂ) T P k'.b k'.delta) (coefC (R : ℂ) T P k'.b k'.delta k'.epsilon aT)
      (coefD (R : ℂ) T P k'.b k'.epsilon aT) z
    = poly (coefB (R : ℂ) T P k.b k.delta) (coefC (R : ℂ) T P k.b k.delta k.epsilon aT)
      (coefD (R : ℂ) T P k.b k.epsilon aT) (z + c * P / (R * T)) := by
  obtain ⟨h1, h2, h3⟩ := shift_eqs h
  rw [h1, h2, h3]
  have : (R : ℂ) * T ≠ 0 := by exact_mod_cast hRT
  unfold poly coefB coefC coefD
  push_cast
  generalize (R : ℂ) * T = x at *
  field_simp
  ring

example : (1 : ℝ) * 2 ≠ 0 := by norm_num

/-- **C36.** The five pressure derivatives are those of the untranslated equation at `V + c`; the enthalpy and Gibbs
departures fall by `P c`, those of entropy, isochoric heat capacity and internal energy do not change. -/
theorem C36_departures (h : Shifted k k' c) (T P V : ℝ) (hP : P ≠ 0) :
    let f := k.fluid R a a1 a2 a3
    let f' := k'.fluid R a a1 a2 a3
    let m := f.main T P (V + c)
    let m' := f'.main T P V
    m'.dP_dT = m.dP_dT ∧ m'.dP_dV = m.dP_dV ∧ m'.d2P_dT2 = m.d2P_dT2 ∧ m'.d2P_dV2 = m.d2P_dV2
    ∧ m'.d2P_dTdV = m.d2P_dTdV ∧ m'.H_dep = m.H_dep - P * c ∧ m'.S_dep = m.S_dep ∧ m'.Cv_dep = m.Cv_dep
    ∧ G_dep f' T P V = G_dep f T P (V + c) - P * c ∧ U_dep f' T P V = U_dep f T P (V + c) := by
  dsimp only
  obtain ⟨h1, h2, h3⟩ := shift_eqs h
  have e1 : V - k'.b = V + c - k.b := (h V).1
  have e2 : V * (V + k'.delta) + k'.epsilon = (V + c) * (V + c + k.delta) + k.epsilon := by rw [h2, h3]; ring
  have e3 : V + V + k'.delta = V + c + (V + c) + k.delta := by rw [h2]; ring
  have e4 : x11of k'.delta k'.epsilon = x11of k.delta k.epsilon := by
    unfold x11of
    rw [show k'.delta * k'.delta - 2 * k'.epsilon - 2 * k'.epsilon
      = k.delta * k.delta - 2 * k.epsilon - 2 * k.epsilon by rw [h2, h3]; ring]
  have e5 : 1 / 2 * x11of k.delta k.epsilon * (k'.delta * k'.delta) - (k'.epsilon + k'.epsilon) * x11of k.delta k.epsilon
      = 1 / 2 * x11of k.delta k.epsilon * (k.delta * k.delta) - (k.epsilon + k.epsilon) * x11of k.delta k.epsilon := by
    rw [h2, h3]; ring
  have hH : ((k'.fluid R a a1 a2 a3).main T P V).H_dep = ((k.fluid R a a1 a2 a3).main T P (V + c)).H_dep - P * c := by
    simp only [Fluid.main, Departure.main, Consts.fluid, e3, e4]; ring
  have hS : ((k'.fluid R a a1 a2 a3).main T P V).S_dep = ((k.fluid R a a1 a2 a3).main T P (V + c)).S_dep := by
    simp only [Fluid.main, Departure.main, Consts.fluid, e1, e3, e4]
  refine ⟨?_, ?_, ?_, ?_, ?_, hH, hS, ?_, ?_, ?_⟩
  · simp only [Fluid.main, Departure.main, Consts.fluid, e1, e2]
  · simp only [Fluid.main, Departure.main, Consts.fluid, e1, e2, e3]
  · simp only [Fluid.main, Departure.main, Consts.fluid, e2]
  · simp only [Fluid.main, Departure.main, Consts.fluid, e1, e2, e3]
  · simp only [Fluid.main, Departure.main, Consts.fluid, e1, e2, e3]
  · simp only [Fluid.main, Departure.main, Consts.fluid, e3, e4, e5]
  · unfold G_dep; rw [hH, hS]; ring
  · unfold U_dep; rw [hH]; simp only [Consts.fluid]; ring

example := C36_departures (R := 8) (a := fun _ => 3) (a1 := 0) (a2 := 0) (a3 := 0) (C36_constants 2 1).2 300 5 9
  (by norm_num)

/-- **C36.** `eos_lnphi`: the translated equation has the logarithm of the fugacity coefficient lowered by
`P c/(R T)`. -/
theorem C36_lnphi (h : Shifted k k' c) (R T P V aT : ℝ) :
    eosLnphi R T P V k'.b k'.delta k'.epsilon aT
      = eosLnphi R T P (V + c) k.b k.delta k.epsilon aT - P * c / (R * T) := by
  obtain ⟨h1, h2, h3⟩ := shift_eqs h
  unfold eosLnphi
  dsimp only
  rw [(h V).1, show k'.delta * k'.delta - 4 * k'.epsilon = k.delta * k.delta - 4 * k.epsilon by rw [h2, h3]; ring,
    show 2 * V * (1 / √(k.delta * k.delta - 4 * k.epsilon)) + k'.delta * (1 / √(k.delta * k.delta - 4 * k.epsilon))
      = 2 * (V + c) * (1 / √(k.delta * k.delta - 4 * k.epsilon)) + k.delta * (1 / √(k.delta * k.delta - 4 * k.epsilon))
      by rw [h2]; ring]
  ring

/-- **C36.** Phase equilibrium of the pure substance is unchanged: two volumes are in equilibrium (same pressure, same
Gibbs departure) in the translated equation exactly if the shifted volumes are in the untranslated one, and the
enthalpy and volume of vaporisation are the same. -/
theorem C36_saturation (h : Shifted k k' c) (T P Vl Vg : ℝ) (hP : P ≠ 0) :
    let f := k.fluid R a a1 a2 a3
    let f' := k'.fluid R a a1 a2 a3
    ((f'.p T Vl = P ∧ f'.p T Vg = P ∧ G_dep f' T P Vl = G_dep f' T P Vg) ↔
      (f.p T (Vl + c) = P ∧ f.p T (Vg + c) = P ∧ G_dep f T P (Vl + c) = G_dep f T P (Vg + c)))
    ∧ (f'.main T P Vg).H_dep - (f'.main T P Vl).H_dep
      = (f.main T P (Vg + c)).H_dep - (f.main T P (Vl + c)).H_dep
    ∧ Vg - Vl = (Vg + c) - (Vl + c) := by
  dsimp only
  have hl := C36_departures (R := R) (a := a) (a1 := a1) (a2 := a2) (a3 := a3) h T P Vl hP
  have hg := C36_departures (R := R) (a := a) (a1 := a1) (a2 := a2) (a3 := a3) h T P Vg hP
  dsimp only at hl hg
  obtain ⟨-, -, -, -, -, hl1, -, -, hl2, -⟩ := hl
  obtain ⟨-, -, -, -, -, hg1, -, -, hg2, -⟩ := hg
  rw [C36_pressure h, C36_pressure h, hl1, hg1, hl2, hg2]
  refine ⟨?_, by ring, by ring⟩
  constructor
  · rintro ⟨x, y, z⟩; exact ⟨x, y, by linarith⟩
  · rintro ⟨x, y, z⟩; exact ⟨x, y, by linarith⟩

example := C36_saturation (R := 8) (a := fun _ => 3) (a1 := 0) (a2 := 0) (a3 := 0) (C36_constants 2 1).2 300 5 9 20
  (by norm_num)

/-! ### The parameters of the modified SRK equation -/

/-- `MSRKTranslated.estimate_MN` (10319-10320) after the two saturation temperatures and attractions are known. -/
noncomputable def estimateMN (Tc T10 T760 al10 al760 : ℝ) : ℝ × ℝ :=
  let N := T10 * T760 * (-(T10 - Tc) * (al760 - 1) + (T760 - Tc) * (al10 - 1))
    / ((T10 - T760) * (T10 - Tc) * (T760 - Tc))
  let M := Tc * (-T10 * (T760 - Tc) * (al10 - 1) + T760 * (T10 - Tc) * (al760 - 1))
    / ((T10 - T760) * (T10 - Tc) * (T760 - Tc))
  (M, N)

/-- **C36.** The estimated pair reproduces both attractions in Soave's 1979 function `1 + (1 - Tr)(M + N/Tr)`, and it is
the only pair that does. -/
theorem C36_estimate_MN {Tc T10 T760 al10 al760 : ℝ} (hTc : Tc ≠ 0) (h10 : T10 ≠ 0) (h760 : T760 ≠ 0)
    (hc10 : T10 ≠ Tc) (hc760 : T760 ≠ Tc) (hne : T10 ≠ T760) (M N : ℝ) :
    (1 + (1 - T10 / Tc) * (M + N / (T10 / Tc)) = al10 ∧ 1 + (1 - T760 / Tc) * (M + N / (T760 / Tc)) = al760)
      ↔ (M, N) = estimateMN Tc T10 T760 al10 al760 := by
  have d1 : T10 - Tc ≠ 0 := sub_ne_zero.2 hc10
  have d2 : T760 - Tc ≠ 0 := sub_ne_zero.2 hc760
  have d3 : T10 - T760 ≠ 0 := sub_ne_zero.2 hne
  unfold estimateMN
  dsimp only
  rw [Prod.mk.injEq]
  constructor
  · rintro ⟨e1, e2⟩
    subst e1 e2
    constructor
    · field_simp
      ring
    · field_simp
      ring
  · rintro ⟨e1, e2⟩
    subst e1 e2
    constructor
    · field_simp
      ring
    · field_simp
      ring

example : (1 + (1 - (300 : ℝ) / 600) * ((estimateMN 600 300 400 2 (3 / 2)).1
    + (estimateMN 600 300 400 2 (3 / 2)).2 / (300 / 600))) = 2 :=
  ((C36_estimate_MN (by norm_num) (by norm_num) (by norm_num) (by norm_num) (by norm_num) (by norm_num) _ _).2 rfl).1

end Verif.Translation
