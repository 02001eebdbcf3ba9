import Mathlib.Data.Real.Basic
import Mathlib.Algebra.BigOperators.Fin
import Mathlib.Algebra.BigOperators.Field
import Mathlib.Analysis.SpecialFunctions.Log.NegMulLog
import Mathlib.Analysis.SpecialFunctions.Log.Deriv
import Mathlib.Analysis.Calculus.Deriv.Mul
import Mathlib.Analysis.Calculus.Deriv.Add
import Mathlib.Tactic.Ring
import Mathlib.Tactic.Linarith
import Mathlib.Tactic.FieldSimp
import Mathlib.Tactic.NormNum
import Mathlib.Tactic.Positivity
import Mathlib.Tactic.FinCases

/-!
# Enthalpy and entropy of the ideal property package (`thermo/property_package.py` 887-904, 1052-1401)

C104. `IdealCaloric`: enthalpy and entropy by the gas route, enthalpy by the liquid route, reactive properties, copies, partial properties.

Heat capacity integrals, enthalpies of vaporization, vapor pressures and liquid volumes are data. A missing enthalpy of vaporization counts as zero
(1243, 1258), a missing volume is replaced (1250): the data are those after this. The reference temperature is 298.15 K, the reference pressure
101325 Pa.
-/

namespace Verif.IdealCaloric

open scoped BigOperators

/-- A value for each component. -/
abbrev Comp (n : ℕ) := Fin n → ℝ

variable {N : ℕ}

/-- Data of the components: integrals of the heat capacity of the gas, and of it over temperature, from the reference temperature; enthalpy of vaporization;
vapor pressure; liquid volume; whether liquid enthalpy depends on pressure (1053); and the gas constant. -/
structure Data (N : ℕ) where
  (hg sg hvap psat : Fin N → ℝ → ℝ) (vl : Fin N → ℝ → ℝ → ℝ) (pdep : Bool) (R : ℝ)

/-- Phases reported. -/
inductive Phase
  | g | l | lg
  deriving DecidableEq

/-- A flashed state. -/
structure State (N : ℕ) where
  (T P : ℝ) (phase : Phase) (z x y : Comp N) (V : ℝ)

/-- Lines 1245-1251. -/
noncomputable def poynting (d : Data N) (T P : ℝ) (i : Fin N) : ℝ := if d.pdep then (P - d.psat i T) * d.vl i T P else 0

/-- `enthalpy_Cpg_Hvap` (1230-1261). -/
noncomputable def enthalpy (d : Data N) (s : State N) : ℝ :=
  match s.phase with
  | .g => ∑ i, s.z i * d.hg i s.T
  | .l => ∑ i, s.z i * (d.hg i s.T - d.hvap i s.T + poynting d s.T s.P i)
  | .lg => ∑ i, (s.z i * d.hg i s.T + (-(s.x i) * (1 - s.V) * d.hvap i s.T))

/-- Composition entropy (1368). -/
noncomputable def mixing (d : Data N) (z : Comp N) : ℝ := -(d.R * ∑ i, z i * Real.log (z i))

/-- `entropy_Cpg_Hvap` (1365-1401). -/
noncomputable def entropy (d : Data N) (s : State N) : ℝ :=
  match s.phase with
  | .g => mixing d s.z - d.R * Real.log (s.P / 101325) + ∑ i, s.z i * d.sg i s.T
  | .l => mixing d s.z + ∑ i, s.z i * (d.sg i s.T + -(d.hvap i s.T) * (1 / s.T) + -(d.R * Real.log (d.psat i s.T / 101325)))
  | .lg => mixing d s.z + ∑ i, (s.z i * d.sg i s.T + -(s.x i) * (1 - s.V) * d.hvap i s.T / s.T
      + s.V * s.y i * -(d.R * Real.log (s.P / 101325))
      + -(d.R * Real.log (d.psat i s.T / 101325)) * (1 - s.V) * s.x i)

/-- `Gm` (1146). -/
noncomputable def gibbs (d : Data N) (s : State N) : ℝ := enthalpy d s - s.T * entropy d s

/-- A gas. -/
def gasState (T P : ℝ) (z : Comp N) : State N := ⟨T, P, .g, z, z, z, 1⟩

/-- A liquid. -/
def liquidState (T P : ℝ) (z : Comp N) : State N := ⟨T, P, .l, z, z, z, 0⟩

/-- Two phases with their feed. -/
structure Split (s : State N) : Prop where
  phase : s.phase = .lg
  balance : ∀ i, s.z i = (1 - s.V) * s.x i + s.V * s.y i
  sumx : ∑ i, s.x i = 1
  sumy : ∑ i, s.y i = 1

/-! ## Two phases as the sum of a liquid and a gas -/

/-- **C104, partial.** If liquid enthalpy does not depend on pressure, the enthalpy of two phases is that of the gas and that of the liquid, weighted by their
amounts. Missing: liquids depending on pressure, which is the default, see `C104_enthalpy_fails`. -/
theorem C104_enthalpy_partial (d : Data N) (s : State N) (h : Split s) (hp : d.pdep = false) :
    enthalpy d s = s.V * enthalpy d (gasState s.T s.P s.y) + (1 - s.V) * enthalpy d (liquidState s.T s.P s.x) := by
  unfold enthalpy gasState liquidState poynting
  rw [h.phase, hp]
  simp only [Bool.false_eq_true, if_false, add_zero]
  rw [Finset.mul_sum, Finset.mul_sum, ← Finset.sum_add_distrib]
  refine Finset.sum_congr rfl fun i _ => ?_
  rw [h.balance i]
  ring

/-- **C104 fails.** By default the liquid alone is given a pressure term that it is not given beside a gas: the enthalpy of two phases is not that of its
phases, by the pressure term of the liquid. -/
theorem C104_enthalpy_fails (d : Data N) (s : State N) (h : Split s) (hp : d.pdep = true) :
    enthalpy d s = s.V * enthalpy d (gasState s.T s.P s.y) + (1 - s.V) * enthalpy d (liquidState s.T s.P s.x)
      - (1 - s.V) * ∑ i, s.x i * ((s.P - d.psat i s.T) * d.vl i s.T s.P) := by
  unfold enthalpy gasState liquidState poynting
  rw [h.phase, hp]
  simp only [if_true]
  rw [Finset.mul_sum, Finset.mul_sum, Finset.mul_sum, ← Finset.sum_add_distrib, ← Finset.sum_sub_distrib]
  refine Finset.sum_congr rfl fun i _ => ?_
  rw [h.balance i]
  ring

/-- The entropy of two phases against that of a gas and a liquid. -/
theorem entropy_split (d : Data N) (s : State N) (h : Split s) (hT : s.T ≠ 0) :
    entropy d s = s.V * entropy d (gasState s.T s.P s.y) + (1 - s.V) * entropy d (liquidState s.T s.P s.x)
      + (mixing d s.z - s.V * mixing d s.y - (1 - s.V) * mixing d s.x) := by
  have key : ∑ i, (s.z i * d.sg i s.T + -(s.x i) * (1 - s.V) * d.hvap i s.T / s.T
      + s.V * s.y i * -(d.R * Real.log (s.P / 101325))
      + -(d.R * Real.log (d.psat i s.T / 101325)) * (1 - s.V) * s.x i)
      = s.V * ∑ i, s.y i * d.sg i s.T + (∑ i, s.y i) * (s.V * -(d.R * Real.log (s.P / 101325)))
        + (1 - s.V) * ∑ i, s.x i * (d.sg i s.T + -(d.hvap i s.T) * (1 / s.T) + -(d.R * Real.log (d.psat i s.T / 101325))) := by
    rw [Finset.mul_sum, Finset.sum_mul, Finset.mul_sum, ← Finset.sum_add_distrib, ← Finset.sum_add_distrib]
    refine Finset.sum_congr rfl fun i _ => ?_
    rw [h.balance i]
    field_simp
    ring
  unfold entropy gasState liquidState
  rw [h.phase]
  dsimp only
  rw [key, h.sumy]
  ring

/-- Convexity of `t log t`. -/
theorem mul_log_convex (x y V : ℝ) (hx : 0 < x) (hy : 0 < y) (h0 : 0 < V) (h1 : V < 1) (hne : x ≠ y) :
    ((1 - V) * x + V * y) * Real.log ((1 - V) * x + V * y) < (1 - V) * (x * Real.log x) + V * (y * Real.log y) := by
  have := Real.strictConvexOn_mul_log.2 (Set.mem_Ici.2 hx.le) (Set.mem_Ici.2 hy.le) hne (sub_pos.2 h1) h0 (by ring)
  simpa only [smul_eq_mul] using this

theorem mul_log_convex_le (x y V : ℝ) (hx : 0 < x) (hy : 0 < y) (h0 : 0 < V) (h1 : V < 1) :
    ((1 - V) * x + V * y) * Real.log ((1 - V) * x + V * y) ≤ (1 - V) * (x * Real.log x) + V * (y * Real.log y) := by
  by_cases hne : x = y
  · rw [hne]
    have : (1 - V) * y + V * y = y := by ring
    rw [this]
    linarith
  · exact (mul_log_convex x y V hx hy h0 h1 hne).le

/-- **C104 fails.** The entropy of two phases of different composition is always above that of its phases: the composition entropy is that of mixing them. -/
theorem C104_entropy_fails (d : Data N) (s : State N) (h : Split s) (hT : s.T ≠ 0) (hR : 0 < d.R) (h0 : 0 < s.V) (h1 : s.V < 1) (hx : ∀ i, 0 < s.x i)
    (hy : ∀ i, 0 < s.y i) (k : Fin N) (hk : s.x k ≠ s.y k) :
    s.V * entropy d (gasState s.T s.P s.y) + (1 - s.V) * entropy d (liquidState s.T s.P s.x) < entropy d s := by
  rw [entropy_split d s h hT]
  have hlt : ∑ i, s.z i * Real.log (s.z i) < ∑ i, ((1 - s.V) * (s.x i * Real.log (s.x i)) + s.V * (s.y i * Real.log (s.y i))) := by
    refine Finset.sum_lt_sum (fun i _ => ?_) ⟨k, Finset.mem_univ k, ?_⟩
    · rw [h.balance i]; exact mul_log_convex_le _ _ _ (hx i) (hy i) h0 h1
    · rw [h.balance k]; exact mul_log_convex _ _ _ (hx k) (hy k) h0 h1 hk
  rw [Finset.sum_add_distrib, ← Finset.mul_sum, ← Finset.mul_sum] at hlt
  have := mul_lt_mul_of_pos_left hlt hR
  unfold mixing
  linarith

/-- **C104, partial.** For phases of the same composition, as for a pure substance, the entropy is that of its phases. Missing: see
`C104_entropy_fails`. -/
theorem C104_entropy_partial (d : Data N) (s : State N) (h : Split s) (hT : s.T ≠ 0) (he : s.x = s.y) :
    entropy d s = s.V * entropy d (gasState s.T s.P s.y) + (1 - s.V) * entropy d (liquidState s.T s.P s.x) := by
  rw [entropy_split d s h hT, he]
  have : s.z = s.y := by
    funext i
    rw [h.balance i, he]
    ring
  rw [this]
  ring

/-- Data of two components, with liquid volumes. -/
noncomputable def data2 (pdep : Bool) : Data 2 where
  hg := fun _ T => T
  sg := fun _ T => T
  hvap := fun _ _ => 3
  psat := fun i _ => ![2, 1 / 2] i
  vl := fun i _ _ => ![1, 3] i
  pdep := pdep
  R := 8

/-- Two phases with `K` values 2 and 1/2. -/
noncomputable def state2 : State 2 := ⟨300, 1, .lg, ![1 / 2, 1 / 2], ![1 / 3, 2 / 3], ![2 / 3, 1 / 3], 1 / 2⟩

theorem state2_split : Split state2 := by
  refine ⟨rfl, fun i => ?_, ?_, ?_⟩
  · fin_cases i <;> norm_num [state2]
  · norm_num [state2, Fin.sum_univ_two]
  · norm_num [state2, Fin.sum_univ_two]

example : (data2 false).pdep = false ∧ (data2 true).pdep = true ∧ 0 < state2.V ∧ state2.V < 1 ∧ (∀ i, 0 < state2.x i) ∧ (∀ i, 0 < state2.y i)
    ∧ state2.x 0 ≠ state2.y 0 := by
  refine ⟨rfl, rfl, by norm_num [state2], by norm_num [state2], fun i => ?_, fun i => ?_, by norm_num [state2]⟩
  · fin_cases i <;> norm_num [state2]
  · fin_cases i <;> norm_num [state2]

/-! ## Dew and bubble points -/

/-- **C104, partial.** At the dew point two phases have enthalpy and entropy of the gas; at the bubble point they have the entropy of the liquid, and its
enthalpy if that does not depend on pressure. Missing: the enthalpy at the bubble point, see `C104_bubble_fails`. -/
theorem C104_limits_partial (d : Data N) (T P : ℝ) (z x y : Comp N) (hT : T ≠ 0) (hz : ∑ i, z i = 1) :
    enthalpy d ⟨T, P, .lg, z, x, z, 1⟩ = enthalpy d (gasState T P z) ∧ entropy d ⟨T, P, .lg, z, x, z, 1⟩ = entropy d (gasState T P z)
    ∧ entropy d ⟨T, P, .lg, z, z, y, 0⟩ = entropy d (liquidState T P z)
    ∧ (d.pdep = false → enthalpy d ⟨T, P, .lg, z, z, y, 0⟩ = enthalpy d (liquidState T P z)) := by
  refine ⟨?_, ?_, ?_, fun hp => ?_⟩
  · unfold enthalpy gasState
    dsimp only
    refine Finset.sum_congr rfl fun i _ => ?_
    ring
  · unfold entropy gasState
    dsimp only
    have : ∑ i, (z i * d.sg i T + -(x i) * (1 - 1) * d.hvap i T / T + 1 * z i * -(d.R * Real.log (P / 101325))
        + -(d.R * Real.log (d.psat i T / 101325)) * (1 - 1) * x i) = ∑ i, z i * d.sg i T + (∑ i, z i) * -(d.R * Real.log (P / 101325)) := by
      rw [Finset.sum_mul, ← Finset.sum_add_distrib]
      refine Finset.sum_congr rfl fun i _ => ?_
      ring
    rw [this, hz]
    ring
  · unfold entropy liquidState
    dsimp only
    congr 1
    refine Finset.sum_congr rfl fun i _ => ?_
    field_simp
    ring
  · unfold enthalpy liquidState poynting
    dsimp only
    rw [hp]
    refine Finset.sum_congr rfl fun i _ => ?_
    simp only [Bool.false_eq_true, if_false]
    ring

example : (300 : ℝ) ≠ 0 ∧ ∑ i, (![1 / 2, 1 / 2] : Comp 2) i = 1 := by
  refine ⟨by norm_num, by norm_num [Fin.sum_univ_two]⟩

/-- **C104 fails.** By default the enthalpy jumps at the bubble point, even though the pressure is the sum of the partial pressures over the liquid. -/
theorem C104_bubble_fails : ∃ (d : Data 2) (T P : ℝ) (z y : Comp 2), d.pdep = true ∧ P = ∑ i, z i * d.psat i T ∧ (∀ i, y i * P = z i * d.psat i T)
    ∧ enthalpy d ⟨T, P, .lg, z, z, y, 0⟩ ≠ enthalpy d (liquidState T P z) := by
  refine ⟨data2 true, 300, 5 / 4, ![1 / 2, 1 / 2], ![4 / 5, 1 / 5], rfl, ?_, fun i => ?_, ?_⟩
  · norm_num [data2, Fin.sum_univ_two]
  · fin_cases i <;> norm_num [data2]
  · norm_num [enthalpy, liquidState, poynting, data2, Fin.sum_univ_two]

/-! ## Vaporization, Gibbs energy -/

/-- **C104.** On the saturation line of a pure substance gas and liquid differ by the enthalpy of vaporization, by that over temperature in entropy, and not at all in
Gibbs energy. -/
theorem C104_vaporization (d : Data 1) (T P : ℝ) (hT : T ≠ 0) (hP : P = d.psat 0 T) :
    enthalpy d (gasState T P fun _ => 1) - enthalpy d (liquidState T P fun _ => 1) = d.hvap 0 T
    ∧ entropy d (gasState T P fun _ => 1) - entropy d (liquidState T P fun _ => 1) = d.hvap 0 T / T
    ∧ gibbs d (gasState T P fun _ => 1) = gibbs d (liquidState T P fun _ => 1) := by
  have h1 : enthalpy d (gasState T P fun _ => 1) - enthalpy d (liquidState T P fun _ => 1) = d.hvap 0 T := by
    unfold enthalpy gasState liquidState poynting
    dsimp only
    rw [Fin.sum_univ_one, Fin.sum_univ_one, hP, sub_self, zero_mul, ite_self]
    ring
  have h2 : entropy d (gasState T P fun _ => 1) - entropy d (liquidState T P fun _ => 1) = d.hvap 0 T / T := by
    unfold entropy gasState liquidState
    dsimp only
    rw [Fin.sum_univ_one, Fin.sum_univ_one, hP]
    ring
  refine ⟨h1, h2, ?_⟩
  unfold gibbs
  have hg : (gasState T P fun _ : Fin 1 => (1 : ℝ)).T = T := rfl
  have hl : (liquidState T P fun _ : Fin 1 => (1 : ℝ)).T = T := rfl
  rw [hg, hl]
  have : T * (entropy d (gasState T P fun _ => 1) - entropy d (liquidState T P fun _ => 1)) = d.hvap 0 T := by
    rw [h2]; field_simp
  linarith

/-- Chemical potential of a component in an ideal gas. -/
noncomputable def muGas (d : Data N) (T P : ℝ) (y : Comp N) (i : Fin N) : ℝ :=
  d.hg i T - T * d.sg i T + d.R * T * Real.log (y i * P / 101325)

/-- Chemical potential of a component in an ideal liquid. -/
noncomputable def muLiquid (d : Data N) (T P : ℝ) (x : Comp N) (i : Fin N) : ℝ :=
  d.hg i T - T * d.sg i T + d.R * T * Real.log (x i * d.psat i T / 101325) + poynting d T P i

/-- **C104.** The Gibbs energy of a gas and of a liquid are the sums of the chemical potentials of their components. -/
theorem C104_gibbs (d : Data N) (T P : ℝ) (z : Comp N) (hT : T ≠ 0) (hP : 0 < P) (hs : ∀ i, 0 < d.psat i T) (hz : ∀ i, 0 < z i) (h1 : ∑ i, z i = 1) :
    gibbs d (gasState T P z) = ∑ i, z i * muGas d T P z i ∧ gibbs d (liquidState T P z) = ∑ i, z i * muLiquid d T P z i := by
  constructor
  · have hlog : ∀ i, Real.log (z i * P / 101325) = Real.log (z i) + Real.log (P / 101325) := by
      intro i
      rw [mul_div_assoc, Real.log_mul (hz i).ne' (by positivity)]
    have hterm : ∀ i, z i * muGas d T P z i = z i * d.hg i T - T * (z i * d.sg i T) + T * (d.R * (z i * Real.log (z i)))
        + T * (d.R * Real.log (P / 101325)) * z i := by
      intro i; unfold muGas; rw [hlog i]; ring
    rw [Finset.sum_congr rfl fun i _ => hterm i, Finset.sum_add_distrib, Finset.sum_add_distrib, Finset.sum_sub_distrib, ← Finset.mul_sum,
      ← Finset.mul_sum, ← Finset.mul_sum, ← Finset.mul_sum, h1]
    unfold gibbs enthalpy entropy gasState mixing
    dsimp only
    ring
  · have hlog : ∀ i, Real.log (z i * d.psat i T / 101325) = Real.log (z i) + Real.log (d.psat i T / 101325) := by
      intro i
      have := hs i
      rw [mul_div_assoc, Real.log_mul (hz i).ne' (by positivity)]
    have hterm : ∀ i, z i * muLiquid d T P z i = z i * (d.hg i T - d.hvap i T + poynting d T P i)
        - T * (z i * (d.sg i T + -(d.hvap i T) * (1 / T) + -(d.R * Real.log (d.psat i T / 101325))))
        + T * (d.R * (z i * Real.log (z i))) := by
      intro i; unfold muLiquid; rw [hlog i]; field_simp; ring
    rw [Finset.sum_congr rfl fun i _ => hterm i, Finset.sum_add_distrib, Finset.sum_sub_distrib, ← Finset.mul_sum, ← Finset.mul_sum, ← Finset.mul_sum]
    unfold gibbs enthalpy entropy liquidState mixing
    dsimp only
    ring

/-- **C104, partial.** At partial pressures by the law of Raoult every component has the same chemical potential in both phases, if liquid enthalpy does not depend on
pressure. Missing: the default, see `C104_potentials_fails`. -/
theorem C104_potentials_partial (d : Data N) (T P : ℝ) (x y : Comp N) (hr : ∀ i, y i * P = x i * d.psat i T) (hp : d.pdep = false) (i : Fin N) :
    muGas d T P y i = muLiquid d T P x i := by
  unfold muGas muLiquid poynting
  rw [hr i, hp]
  simp

/-- **C104 fails.** By default the flash (which uses the law of Raoult) and the Gibbs energy disagree: at the equilibrium found the chemical potentials in both
phases differ by the pressure term. -/
theorem C104_potentials_fails (d : Data N) (T P : ℝ) (x y : Comp N) (hr : ∀ i, y i * P = x i * d.psat i T) (hp : d.pdep = true) (i : Fin N)
    (hne : d.psat i T ≠ P) (hv : d.vl i T P ≠ 0) : muGas d T P y i ≠ muLiquid d T P x i := by
  unfold muGas muLiquid poynting
  rw [hr i, hp]
  simp only [if_true]
  intro hc
  have : (P - d.psat i T) * d.vl i T P = 0 := by linarith
  rcases mul_eq_zero.1 this with h | h
  · exact hne (by linarith)
  · exact hv h

example : (∀ i, state2.y i * 1 = state2.x i * (data2 true).psat i 300) ∧ (data2 true).psat 0 300 ≠ 1 ∧ (data2 true).vl 0 300 1 ≠ 0
    ∧ ∀ i, 0 < (data2 true).psat i 300 := by
  refine ⟨fun i => ?_, by norm_num [data2], by norm_num [data2], fun i => ?_⟩
  · fin_cases i <;> norm_num [state2, data2]
  · fin_cases i <;> norm_num [data2]

/-- **C104 fails.** The Gibbs energy of two phases in equilibrium is below the sum of the chemical potentials of the feed. -/
theorem C104_gibbs_fails (d : Data N) (s : State N) (h : Split s) (hp : d.pdep = false) (hT : 0 < s.T) (hP : 0 < s.P) (hs : ∀ i, 0 < d.psat i s.T)
    (hR : 0 < d.R) (h0 : 0 < s.V) (h1 : s.V < 1) (hx : ∀ i, 0 < s.x i) (hy : ∀ i, 0 < s.y i) (hr : ∀ i, s.y i * s.P = s.x i * d.psat i s.T)
    (k : Fin N) (hk : s.x k ≠ s.y k) : gibbs d s < ∑ i, s.z i * muGas d s.T s.P s.y i := by
  have hS := C104_entropy_fails d s h hT.ne' hR h0 h1 hx hy k hk
  have hH := C104_enthalpy_partial d s h hp
  obtain ⟨hg, -⟩ := C104_gibbs d s.T s.P s.y hT.ne' hP hs hy h.sumy
  obtain ⟨-, hl⟩ := C104_gibbs d s.T s.P s.x hT.ne' hP hs hx h.sumx
  have hmu : ∀ i, muLiquid d s.T s.P s.x i = muGas d s.T s.P s.y i := fun i => (C104_potentials_partial d s.T s.P s.x s.y hr hp i).symm
  have hsum : ∑ i, s.z i * muGas d s.T s.P s.y i
      = s.V * gibbs d (gasState s.T s.P s.y) + (1 - s.V) * gibbs d (liquidState s.T s.P s.x) := by
    rw [hg, hl, Finset.mul_sum, Finset.mul_sum, ← Finset.sum_add_distrib]
    refine Finset.sum_congr rfl fun i _ => ?_
    rw [hmu i, h.balance i]
    ring
  rw [hsum]
  have e1 : gibbs d (gasState s.T s.P s.y) = enthalpy d (gasState s.T s.P s.y) - s.T * entropy d (gasState s.T s.P s.y) := rfl
  have e2 : gibbs d (liquidState s.T s.P s.x) = enthalpy d (liquidState s.T s.P s.x) - s.T * entropy d (liquidState s.T s.P s.x) := rfl
  have e3 : gibbs d s = enthalpy d s - s.T * entropy d s := rfl
  rw [e1, e2, e3, hH]
  have := mul_lt_mul_of_pos_left hS hT
  nlinarith

/-! ## Derivatives -/

/-- **C104.** For a gas enthalpy and entropy have the derivatives by temperature and pressure that `Cpgm` (1079-1083) says, if the integrals are those of
the heat capacities. -/
theorem C104_gas_derivatives (d : Data N) (cp : Comp N) (T P : ℝ) (z : Comp N) (hP : P ≠ 0) (hh : ∀ i, HasDerivAt (d.hg i) (cp i) T)
    (hs : ∀ i, HasDerivAt (d.sg i) (cp i / T) T) :
    HasDerivAt (fun t => enthalpy d (gasState t P z)) (∑ i, z i * cp i) T
    ∧ HasDerivAt (fun t => entropy d (gasState t P z)) ((∑ i, z i * cp i) / T) T
    ∧ HasDerivAt (fun p => entropy d (gasState T p z)) (-(d.R / P)) P ∧ ∀ p, enthalpy d (gasState T p z) = enthalpy d (gasState T P z) := by
  refine ⟨?_, ?_, ?_, fun p => rfl⟩
  · exact HasDerivAt.fun_sum fun i _ => (hh i).const_mul (z i)
  · have := HasDerivAt.fun_sum (u := Finset.univ) (A := fun i t => z i * d.sg i t) fun i _ => (hs i).const_mul (z i)
    have h2 : ∑ i, z i * (cp i / T) = (∑ i, z i * cp i) / T := by
      rw [Finset.sum_div]
      refine Finset.sum_congr rfl fun i _ => ?_
      ring
    rw [h2] at this
    exact this.const_add (mixing d z - d.R * Real.log (P / 101325))
  · have h1 : HasDerivAt (fun p : ℝ => Real.log (p / 101325)) (1 / P) P := by
      have h2 : HasDerivAt (fun p : ℝ => p / 101325) (1 / 101325) P := by simpa using (hasDerivAt_id P).div_const 101325
      have := h2.log (by positivity)
      convert this using 1
      field_simp
    have h3 := ((h1.const_mul d.R).const_sub (mixing d z)).add_const (∑ i, z i * d.sg i T)
    have e : -(d.R * (1 / P)) = -(d.R / P) := by ring
    rw [e] at h3
    exact h3

example : ∀ i, HasDerivAt ((data2 true).hg i) 1 300 := fun _ => hasDerivAt_id _

/-- **C104 fails.** The heat capacity reported for the liquid (1072-1076) comes from separate data and is not used for its enthalpy: nothing makes it the
derivative. -/
theorem C104_liquid_cp_fails : ∃ (d : Data 1) (cpl : ℝ → ℝ), cpl 300 = 75 ∧ HasDerivAt (fun t => enthalpy d (liquidState t 1 fun _ => 1)) 30 300 := by
  refine ⟨⟨fun _ T => 30 * T, fun _ T => T, fun _ _ => 1, fun _ _ => 1, fun _ _ _ => 1, false, 8⟩, fun _ => 75, rfl, ?_⟩
  have : (fun t => enthalpy (⟨fun _ T => 30 * T, fun _ T => T, fun _ _ => 1, fun _ _ => 1, fun _ _ _ => 1, false, 8⟩ : Data 1)
      (liquidState t 1 fun _ => 1)) = fun t => 30 * t - 1 := by
    funext t
    simp [enthalpy, liquidState, poynting]
  rw [this]
  simpa using ((hasDerivAt_id (300 : ℝ)).const_mul 30).sub_const 1

/-! ## Partial properties (1148-1185) -/

/-- `n_tot` times the Gibbs energy of a gas of the normalized amounts (1177-1184). -/
noncomputable def gibbsExtensive (d : Data N) (T P : ℝ) (n : Comp N) : ℝ :=
  gibbs d (gasState T P fun i => n i / ∑ j, n j) * ∑ j, n j

/-- `n_tot` times the enthalpy of a gas. -/
noncomputable def enthalpyExtensive (d : Data N) (T P : ℝ) (n : Comp N) : ℝ :=
  enthalpy d (gasState T P fun i => n i / ∑ j, n j) * ∑ j, n j

theorem enthalpyExtensive_eq (d : Data N) (T P : ℝ) (n : Comp N) (hn : ∑ j, n j ≠ 0) :
    enthalpyExtensive d T P n = ∑ i, n i * d.hg i T := by
  unfold enthalpyExtensive enthalpy gasState
  dsimp only
  rw [Finset.sum_mul]
  refine Finset.sum_congr rfl fun i _ => ?_
  field_simp

theorem gibbsExtensive_eq (d : Data N) (T P : ℝ) (n : Comp N) (hn : ∀ i, 0 < n i) (hs : 0 < ∑ j, n j) :
    gibbsExtensive d T P n = ∑ i, (n i * (d.hg i T - T * d.sg i T + d.R * T * Real.log (P / 101325)) + d.R * T * (n i * Real.log (n i)))
      - d.R * T * ((∑ j, n j) * Real.log (∑ j, n j)) := by
  set S := ∑ j, n j with hS
  have hlog : ∀ i, Real.log (n i / S) = Real.log (n i) - Real.log S := fun i => Real.log_div (hn i).ne' hs.ne'
  have h1 : ∑ i, n i / S * d.hg i T = (∑ i, n i * d.hg i T) / S := by
    rw [Finset.sum_div]; exact Finset.sum_congr rfl fun i _ => by ring
  have h2 : ∑ i, n i / S * d.sg i T = (∑ i, n i * d.sg i T) / S := by
    rw [Finset.sum_div]; exact Finset.sum_congr rfl fun i _ => by ring
  have h3 : ∑ i, n i / S * Real.log (n i / S) = (∑ i, n i * Real.log (n i)) / S - Real.log S := by
    have : ∀ i, n i / S * Real.log (n i / S) = n i * Real.log (n i) / S - n i * (Real.log S / S) := by
      intro i; rw [hlog i]; ring
    rw [Finset.sum_congr rfl fun i _ => this i, Finset.sum_sub_distrib, ← Finset.sum_div, ← Finset.sum_mul, ← hS]
    field_simp
  have h4 : ∑ i, (n i * (d.hg i T - T * d.sg i T + d.R * T * Real.log (P / 101325)) + d.R * T * (n i * Real.log (n i)))
      = ∑ i, n i * d.hg i T - T * ∑ i, n i * d.sg i T + d.R * T * Real.log (P / 101325) * S + d.R * T * ∑ i, n i * Real.log (n i) := by
    rw [hS, Finset.mul_sum, Finset.mul_sum, Finset.mul_sum, ← Finset.sum_sub_distrib, ← Finset.sum_add_distrib, ← Finset.sum_add_distrib]
    exact Finset.sum_congr rfl fun i _ => by ring
  unfold gibbsExtensive gibbs enthalpy entropy gasState mixing
  dsimp only
  rw [← hS, h1, h2, h3, h4]
  field_simp
  ring

theorem sum_update (z : Comp N) (i : Fin N) (t : ℝ) (f : Fin N → ℝ → ℝ) :
    ∑ k, f k (Function.update z i t k) = f i t + ∑ k ∈ Finset.univ.erase i, f k (z k) := by
  rw [← Finset.add_sum_erase Finset.univ _ (Finset.mem_univ i), Function.update_self]
  congr 1
  refine Finset.sum_congr rfl fun k hk => ?_
  rw [Function.update_of_ne (Finset.ne_of_mem_erase hk)]

/-- **C104.** Partial properties of a gas, the derivatives of amount times property by the amount of one component, are for the enthalpy the enthalpy of the pure
component and for the Gibbs energy its chemical potential. -/
theorem C104_partial (d : Data N) (T P : ℝ) (z : Comp N) (hP : 0 < P) (hz : ∀ i, 0 < z i) (h1 : ∑ i, z i = 1) (i : Fin N) :
    HasDerivAt (fun t => enthalpyExtensive d T P (Function.update z i t)) (d.hg i T) (z i)
    ∧ HasDerivAt (fun t => gibbsExtensive d T P (Function.update z i t)) (muGas d T P z i) (z i) := by
  have hsum : ∀ t, ∑ k, Function.update z i t k = t + ∑ k ∈ Finset.univ.erase i, z k := fun t => sum_update z i t fun _ v => v
  have hrest : 0 ≤ ∑ k ∈ Finset.univ.erase i, z k := Finset.sum_nonneg fun k _ => (hz k).le
  have hnear : ∀ᶠ t in nhds (z i), 0 < t := lt_mem_nhds (hz i)
  have hpos : ∀ t, 0 < t → ∀ k, 0 < Function.update z i t k := by
    intro t ht k
    by_cases hk : k = i
    · rw [hk, Function.update_self]; exact ht
    · rw [Function.update_of_ne hk]; exact hz k
  have hs : z i + ∑ k ∈ Finset.univ.erase i, z k = 1 := by rw [Finset.add_sum_erase _ _ (Finset.mem_univ i), h1]
  constructor
  · have he : (fun t => enthalpyExtensive d T P (Function.update z i t)) =ᶠ[nhds (z i)]
        fun t => t * d.hg i T + ∑ k ∈ Finset.univ.erase i, z k * d.hg k T := by
      filter_upwards [hnear] with t ht
      rw [enthalpyExtensive_eq d T P _ (by rw [hsum]; linarith), sum_update z i t fun k v => v * d.hg k T]
    refine HasDerivAt.congr_of_eventuallyEq ?_ he
    simpa using ((hasDerivAt_id (z i)).mul_const (d.hg i T)).add_const (∑ k ∈ Finset.univ.erase i, z k * d.hg k T)
  · have he : (fun t => gibbsExtensive d T P (Function.update z i t)) =ᶠ[nhds (z i)]
        fun t => (t * (d.hg i T - T * d.sg i T + d.R * T * Real.log (P / 101325)) + d.R * T * (t * Real.log t))
          + ∑ k ∈ Finset.univ.erase i, (z k * (d.hg k T - T * d.sg k T + d.R * T * Real.log (P / 101325)) + d.R * T * (z k * Real.log (z k)))
          - d.R * T * ((t + ∑ k ∈ Finset.univ.erase i, z k) * Real.log (t + ∑ k ∈ Finset.univ.erase i, z k)) := by
      filter_upwards [hnear] with t ht
      rw [gibbsExtensive_eq d T P _ (hpos t ht) (by rw [hsum]; linarith), hsum,
        sum_update z i t fun k v => v * (d.hg k T - T * d.sg k T + d.R * T * Real.log (P / 101325)) + d.R * T * (v * Real.log v)]
    refine HasDerivAt.congr_of_eventuallyEq ?_ he
    have a := (hasDerivAt_id (z i)).mul_const (d.hg i T - T * d.sg i T + d.R * T * Real.log (P / 101325))
    have b := (Real.hasDerivAt_mul_log (hz i).ne').const_mul (d.R * T)
    have c : HasDerivAt (fun t => (t + ∑ k ∈ Finset.univ.erase i, z k) * Real.log (t + ∑ k ∈ Finset.univ.erase i, z k))
        (Real.log (z i + ∑ k ∈ Finset.univ.erase i, z k) + 1) (z i) := by
      have hne : z i + ∑ k ∈ Finset.univ.erase i, z k ≠ 0 := by rw [hs]; norm_num
      have := (Real.hasDerivAt_mul_log hne).comp_add_const (z i) (∑ k ∈ Finset.univ.erase i, z k)
      exact this
    have e := ((a.fun_add b).add_const (∑ k ∈ Finset.univ.erase i, (z k * (d.hg k T - T * d.sg k T + d.R * T * Real.log (P / 101325))
      + d.R * T * (z k * Real.log (z k))))).fun_sub (c.const_mul (d.R * T))
    refine e.congr_deriv ?_
    unfold muGas
    rw [hs, Real.log_one, mul_div_assoc, Real.log_mul (hz i).ne' (by positivity)]
    ring

/-- Euler: with the amounts of the mixture, the partial properties add to the property. -/
theorem C104_partial_sum (d : Data N) (T P : ℝ) (z : Comp N) (hT : T ≠ 0) (hP : 0 < P) (hs : ∀ i, 0 < d.psat i T) (hz : ∀ i, 0 < z i) (h1 : ∑ i, z i = 1) :
    ∑ i, z i * d.hg i T = enthalpy d (gasState T P z) ∧ ∑ i, z i * muGas d T P z i = gibbs d (gasState T P z) :=
  ⟨rfl, (C104_gibbs d T P z hT hP hs hz h1).1.symm⟩

example : (0 : ℝ) < 101325 ∧ (∀ i, 0 < (![1 / 2, 1 / 2] : Comp 2) i) := by
  refine ⟨by norm_num, fun i => ?_⟩
  fin_cases i <;> norm_num

/-! ## The liquid route (1263-1295) -/

/-- Data of the liquid route: integrals of the heat capacities of liquid and gas between temperatures, enthalpy of vaporization, temperatures of transition. -/
structure DataB (N : ℕ) where
  (il ig : Fin N → ℝ → ℝ → ℝ) (hvap : Fin N → ℝ → ℝ) (Tt : Comp N)

/-- `T_REF_IG` (557). -/
noncomputable def Tref : ℝ := 29815 / 100

/-- Lines 1283-1286. -/
noncomputable def gasB (b : DataB N) (T : ℝ) (i : Fin N) : ℝ := b.il i Tref (b.Tt i) + b.hvap i (b.Tt i) + b.ig i (b.Tt i) T

/-- `enthalpy_Cpl_Cpg_Hvap` (1273-1295). -/
noncomputable def enthalpyB (b : DataB N) (s : State N) : ℝ :=
  match s.phase with
  | .l => ∑ i, s.z i * b.il i Tref s.T
  | .g => ∑ i, s.z i * gasB b s.T i
  | .lg => ∑ i, (s.V * s.y i * gasB b s.T i + (1 - s.V) * s.x i * b.il i Tref s.T)

/-- **C104.** By the liquid route the enthalpy of two phases is that of its phases, and at the temperature of transition, if that is the same for all components, gas
and liquid differ by the enthalpies of vaporization. -/
theorem C104_liquid_route (b : DataB N) (s : State N) (h : Split s) (h0 : ∀ i t, b.ig i t t = 0) :
    enthalpyB b s = s.V * enthalpyB b (gasState s.T s.P s.y) + (1 - s.V) * enthalpyB b (liquidState s.T s.P s.x)
    ∧ ∀ T P z, (∀ i, b.Tt i = T) → enthalpyB b (gasState T P z) - enthalpyB b (liquidState T P z) = ∑ i, z i * b.hvap i T := by
  constructor
  · unfold enthalpyB gasState liquidState
    rw [h.phase]
    dsimp only
    rw [Finset.mul_sum, Finset.mul_sum, ← Finset.sum_add_distrib]
    exact Finset.sum_congr rfl fun i _ => by ring
  · intro T P z hT
    unfold enthalpyB gasState liquidState gasB
    dsimp only
    rw [← Finset.sum_sub_distrib]
    refine Finset.sum_congr rfl fun i _ => ?_
    rw [hT i, h0]
    ring

/-- **C104.** If the enthalpies of vaporization follow from the heat capacities, both routes differ only by the reference: by the enthalpies of vaporization at the
reference temperature, in each phase and at every temperature. -/
theorem C104_routes (d : Data N) (b : DataB N) (s : State N) (h : s.phase = .lg → Split s) (hp : d.pdep = false)
    (hg : ∀ i t, d.hg i t = b.ig i Tref t) (hadd : ∀ i r t u, b.ig i r t + b.ig i t u = b.ig i r u) (hv : ∀ i t, d.hvap i t = b.hvap i t)
    (hk : ∀ i t, b.hvap i t = b.hvap i Tref + b.ig i Tref t - b.il i Tref t) :
    enthalpyB b s = enthalpy d s + ∑ i, s.z i * b.hvap i Tref := by
  have hgas : ∀ i t, gasB b t i = d.hg i t + b.hvap i Tref := by
    intro i t
    have h1 := hadd i Tref (b.Tt i) t
    have h2 := hk i (b.Tt i)
    unfold gasB
    rw [hg i t]
    linarith
  have hliq : ∀ i t, b.il i Tref t = d.hg i t - d.hvap i t + b.hvap i Tref := by
    intro i t
    have h2 := hk i t
    rw [hg i t, hv i t]
    linarith
  unfold enthalpyB enthalpy
  rcases hph : s.phase with _ | _ | _
  · dsimp only
    rw [← Finset.sum_add_distrib]
    exact Finset.sum_congr rfl fun i _ => by rw [hgas]; ring
  · dsimp only
    rw [← Finset.sum_add_distrib]
    refine Finset.sum_congr rfl fun i _ => ?_
    unfold poynting
    rw [hliq, hp]
    simp only [Bool.false_eq_true, if_false]
    ring
  · dsimp only
    rw [← Finset.sum_add_distrib]
    refine Finset.sum_congr rfl fun i _ => ?_
    rw [hliq, hgas, (h hph).balance i]
    ring

/-- The premises: constant heat capacities of 30 and 75 and an enthalpy of vaporization falling accordingly. -/
example : let b : DataB 1 := ⟨fun _ r t => 75 * (t - r), fun _ r t => 30 * (t - r), fun _ t => 40000 - 45 * (t - Tref), fun _ => 350⟩
    (∀ i t, b.ig i t t = 0) ∧ (∀ i r t u, b.ig i r t + b.ig i t u = b.ig i r u)
    ∧ ∀ i t, b.hvap i t = b.hvap i Tref + b.ig i Tref t - b.il i Tref t := by
  refine ⟨fun _ t => ?_, fun _ r t u => ?_, fun _ t => ?_⟩ <;> (dsimp only; ring)

/-! ## Reactive properties and copies (573-575, 887-904, 1128-1138) -/

/-- Formation properties as stored. -/
structure Formation (N : ℕ) where
  (Hfs Gfs : Option (Comp N))

/-- `Sfs` (1130-1131). -/
noncomputable def Sfs (f : Formation N) : Option (Comp N) :=
  match f.Hfs, f.Gfs with
  | some h, some g => some fun i => (h i - g i) / (29815 / 100)
  | _, _ => none

/-- `Hm_reactive` (888-892); `none` is an exception. -/
noncomputable def hReactive (f : Formation N) (z : Comp N) (H : ℝ) : Option ℝ := f.Hfs.map fun h => H + ∑ i, z i * h i

/-- `Sm_reactive` (895-899). -/
noncomputable def sReactive (f : Formation N) (z : Comp N) (S : ℝ) : Option ℝ := (Sfs f).map fun h => S + ∑ i, z i * h i

/-- `Gm_reactive` (902-904). -/
noncomputable def gReactive (f : Formation N) (z : Comp N) (T H S : ℝ) : Option ℝ :=
  match hReactive f z H, sReactive f z S with
  | some h, some s => some (h - T * s)
  | _, _ => none

/-- **C104.** At 298.15 K the reactive Gibbs energy is the Gibbs energy and the Gibbs energies of formation; at other temperatures it follows from enthalpies and
entropies of formation at 298.15 K. -/
theorem C104_reactive (Hf Gf z : Comp N) (T H S : ℝ) :
    gReactive ⟨some Hf, some Gf⟩ z (29815 / 100) H S = some (H - 29815 / 100 * S + ∑ i, z i * Gf i)
    ∧ gReactive ⟨some Hf, some Gf⟩ z T H S
      = some (H - T * S + ∑ i, z i * (Gf i * (T / (29815 / 100)) + Hf i * (1 - T / (29815 / 100)))) := by
  have h2 : gReactive ⟨some Hf, some Gf⟩ z T H S
      = some (H - T * S + ∑ i, z i * (Gf i * (T / (29815 / 100)) + Hf i * (1 - T / (29815 / 100)))) := by
    unfold gReactive hReactive sReactive Sfs
    simp only [Option.map_some, Option.some.injEq]
    have : ∑ i, z i * (Gf i * (T / (29815 / 100)) + Hf i * (1 - T / (29815 / 100)))
        = ∑ i, z i * Hf i - T * ∑ i, z i * ((Hf i - Gf i) / (29815 / 100)) := by
      rw [Finset.mul_sum, ← Finset.sum_sub_distrib]
      exact Finset.sum_congr rfl fun i _ => by ring
    rw [this]
    ring
  refine ⟨?_, h2⟩
  unfold gReactive hReactive sReactive Sfs
  simp only [Option.map_some, Option.some.injEq]
  have : ∑ i, z i * Gf i = ∑ i, z i * Hf i - 29815 / 100 * ∑ i, z i * ((Hf i - Gf i) / (29815 / 100)) := by
    rw [Finset.mul_sum, ← Finset.sum_sub_distrib]
    exact Finset.sum_congr rfl fun i _ => by ring
  rw [this]
  ring

/-- `__copy__` (573-575): the stored arguments (1133-1138) are without properties of formation. -/
def copy (_ : Formation N) : Formation N := ⟨none, none⟩

/-- **C104 fails.** Copies, as made by `to`, lose the properties of formation: all reactive properties of them are exceptions. -/
theorem C104_copy_fails (f : Formation N) (z : Comp N) (T H S : ℝ) :
    hReactive (copy f) z H = none ∧ sReactive (copy f) z S = none ∧ gReactive (copy f) z T H S = none := ⟨rfl, rfl, rfl⟩

/-- **C104.** By the liquid route the liquid has no enthalpy at 298.15 K. A gas is all vapor and a liquid has none. -/
theorem C104_reference (b : DataB N) (P : ℝ) (z : Comp N) (h0 : ∀ i t, b.il i t t = 0) :
    enthalpyB b (liquidState 298.15 P z) = 0 ∧ (∀ T, (gasState T P z).V = 1) ∧ ∀ T, (liquidState T P z).V = 0 := by
  refine ⟨?_, fun _ => rfl, fun _ => rfl⟩
  unfold enthalpyB liquidState
  have : (298.15 : ℝ) = Tref := by unfold Tref; norm_num
  simp [this, h0]

example : ∃ b : DataB 1, (∀ i t, b.il i t t = 0) ∧ b.il 0 0 1 = 75 := ⟨⟨fun _ s t => 75 * (t - s), fun _ s t => 30 * (t - s), fun _ _ => 1, fun _ => 1⟩, by simp, by simp⟩

end Verif.IdealCaloric
