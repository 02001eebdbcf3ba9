import Mathlib.Analysis.SpecialFunctions.Pow.Real
import Mathlib.Analysis.SpecialFunctions.Pow.Deriv
import Mathlib.Analysis.SpecialFunctions.Log.Base
import Mathlib.Analysis.Calculus.Deriv.MeanValue
import Mathlib.Analysis.MeanInequalities
import Mathlib.Algebra.BigOperators.Field

/-!
# Aqueous electrolytes (`thermo/electrochem.py` 149-192, 197-966, 1056-1441)

* C111: density, viscosity and heat capacity after Laliberté, thermal conductivity after Magomedov, conductivity, ionic strength, the ion product of water, loading of the tables, and how
  the mixture objects (`volume.py` 1134-1185, `viscosity.py` 1160-1262, `heat_capacity.py` 1473-1552, `thermal_conductivity.py` 698-741) offer and call them.

Coefficients of solutes are arbitrary; the tables are not part of the repository. The Chebyshev fit and IAPWS-95 are arbitrary functions. Python's `0.0**v` with negative `v`, which raises, is left out:
here the power is Mathlib's.
-/

namespace Verif.Electrolyte

open Real Finset

/-! ## Correlations -/

/-- `Laliberte_viscosity_w` (197-234). -/
noncomputable def muW (T : ℝ) : ℝ :=
  let t := T - 273.15
  (t + 246) / ((0.05594 * t + 5.2842) * t + 137.37) * 1e-3

/-- `Laliberte_viscosity_i` (237-289); the coefficients `v1` to `v6` are `v 0` to `v 5`. -/
noncomputable def muI (T ww : ℝ) (v : Fin 6 → ℝ) : ℝ :=
  let t := T - 273.15
  exp ((v 0 * (1 - ww) ^ v 1 + v 2) / (v 3 * t + 1)) / (v 4 * (1 - ww) ^ v 5 + 1) * 1e-3

/-- `Laliberte_viscosity_mix` (291-345). -/
noncomputable def muMix {N : ℕ} (T : ℝ) (ws : Fin N → ℝ) (v : Fin N → Fin 6 → ℝ) : ℝ :=
  let w := 1 - ∑ i, ws i
  (muW T * 1000) ^ w * (∏ i, (muI T w (v i) * 1000) ^ ws i) * 1e-3

/-- `Laliberte_density_w` (402-445). -/
noncomputable def rhoW (T : ℝ) : ℝ :=
  let t := T - 273.15
  (((((-2.8054253e-10 * t + 1.0556302e-7) * t - 4.6170461e-5) * t - 0.0079870401) * t + 16.945176) * t + 999.83952) / (1 + 0.01687985 * t)

/-- `Laliberte_density_i` (448-498). -/
noncomputable def rhoI (T ww : ℝ) (c : Fin 5 → ℝ) : ℝ :=
  let t := T - 273.15
  (c 0 * (1 - ww) + c 1) * exp (1e-6 * (t + c 4) * (t + c 4)) / (1 - ww + c 2 + c 3 * t)

/-- `Laliberte_density_mix` (500-550). -/
noncomputable def rhoMix {N : ℕ} (T : ℝ) (ws : Fin N → ℝ) (c : Fin N → Fin 5 → ℝ) : ℝ :=
  let w := 1 - ∑ i, ws i
  1 / (w / rhoW T + ∑ i, ws i / rhoI T w (c i))

/-- `Laliberte_heat_capacity_w` (640-687); `sat` is `iapws95_Cpl_mass_sat`, `cheb` the Chebyshev fit. -/
noncomputable def cpW (sat cheb : ℝ → ℝ) (T : ℝ) : ℝ :=
  if T > 365.1800756083714 then sat T
  else if T < 273.15 - 15 then cheb (0.012903225806451612892 * (273.15 - 15 - 335.64999999999997726))
  else cheb (0.012903225806451612892 * (T - 335.64999999999997726))

/-- `Laliberte_heat_capacity_i` (690-737). -/
noncomputable def cpI (T ww : ℝ) (a : Fin 6 → ℝ) : ℝ :=
  let T := if T < 273.15 - 15 then 273.15 - 15 else T
  let t := T - 273.15
  let α := a 1 * t + a 2 * exp (0.01 * t) + a 3 * (1 - ww)
  (a 0 * exp α + a 4 * (1 - ww) ^ a 5) * 1000

/-- `Laliberte_heat_capacity_mix` (739-783). -/
noncomputable def cpMix {N : ℕ} (sat cheb : ℝ → ℝ) (T : ℝ) (ws : Fin N → ℝ) (a : Fin N → Fin 6 → ℝ) : ℝ :=
  let w := 1 - ∑ i, ws i
  w * cpW sat cheb T + ∑ i, ws i * cpI T w (a i)

/-- `dilute_ionic_conductivity` (839-890). -/
noncomputable def diluteConductivity {N : ℕ} (k z : Fin N → ℝ) (rhom : ℝ) : ℝ := rhom * ∑ i, z i * k i

/-- `horner`: highest power first. -/
def horner (c : List ℝ) (x : ℝ) : ℝ := c.foldl (fun s a => s * x + a) 0

/-- `conductivity_McCleskey` (894-966). -/
noncomputable def mcCleskey (T M : ℝ) (lam A : List ℝ) (B mult rho : ℝ) : ℝ :=
  let t := T - 273.15
  let r := M ^ (0.5 : ℝ)
  let param := horner lam t - horner A t * r / (1 + B * r)
  param * (M * rho * 1e-3) * mult * 0.1

/-- `Magomedov_mix` (1056-1105). -/
noncomputable def magomedov {N : ℕ} (T P : ℝ) (ws A : Fin N → ℝ) (kw : ℝ) : ℝ :=
  let p := P * 1e-6
  let s := ∑ i, A i * ws i * (1 + 2 * ws i * ws i)
  kw * (1 - s * 100) - 2e-6 * p * T * ∑ i, ws i

/-- `ionic_strength` (1159-1201). -/
noncomputable def ionicStrength {N : ℕ} (m z : Fin N → ℝ) : ℝ := 0.5 * ∑ i, m i * z i * z i

/-- `Kweq_1981` (1204-1258). -/
noncomputable def kw1981 (T rho : ℝ) : ℝ :=
  let r := rho * 1e-3
  10 ^ (-4.098 + -3245.2 * (1 / T) + 2.2362e5 * (1 / T * (1 / T)) + -3.984e7 / (T * T * T) +
    (13.957 + -1262.3 * (1 / T) + 8.5641e5 * (1 / T * (1 / T))) * logb 10 r)

/-- `Kweq_IAPWS_gas` (1261-1304). -/
noncomputable def kwGas (T : ℝ) : ℝ :=
  10 ^ (-(6.141500e-1 + 4.825133e4 * (1 / T) + -6.770793e4 * (1 / T * (1 / T)) + 1.010210e7 * (1 / T * (1 / T)) * (1 / T)))

/-- Coefficients of the two formulations of the ion product. -/
structure KwCoef where
  (a0 a1 a2 b0 b1 b2 : ℝ)

/-- Those of `Kweq_IAPWS` (1361-1367). -/
noncomputable def iapws : KwCoef := ⟨-0.864671, 8659.19, -22786.2, 0.642044, -56.8534, -0.375754⟩

/-- Those of `Kweq_Arcis_Tremaine_Bandura_Lvov` (1429-1435). -/
noncomputable def arcis : KwCoef := ⟨1.14387, 7923.28, 96276.7, 2.00935, -3.87984, -1.542⟩

/-- `Kweq_IAPWS` (1307-1374), `Kweq_Arcis_Tremaine_Bandura_Lvov` (1376-1441). -/
noncomputable def kwLiquid (k : KwCoef) (T rho : ℝ) : ℝ :=
  let r := rho * 1e-3
  let n := 6
  let Q := r * exp (k.a0 + k.a1 / T + k.a2 / (T * T) * r ^ (2 / 3 : ℝ))
  10 ^ (-(-2 * n * (logb 10 (1 + Q) - Q / (Q + 1) * r * (k.b0 + k.b1 / T + k.b2 * r)) - logb 10 (kwGas T) + -3.48871854562233))

/-! ## Tables and mixture objects -/

/-- Functions that read the tables: those that load them first (lines 387, 589, 824, 994, 1044, and `__getattr__` 180-188), and `thermal_conductivity_Magomedov` (1107-1156). -/
inductive Reader | loading | magomedov
deriving DecidableEq

/-- One call with the flag `_loaded_electrochem_data`: whether it succeeds and the flag afterwards. Without the tables the global name is not defined. -/
def call (loaded : Bool) : Reader → Bool × Bool
  | .loading => (true, true)
  | .magomedov => (loaded, loaded)

/-- A sequence of calls: which succeed. -/
def calls (loaded : Bool) : List Reader → List Bool
  | [] => []
  | r :: l => (call loaded r).1 :: calls (call loaded r).2 l

/-- A row of `Laliberte_data`: coefficients of density (columns 3-7), viscosity (12-17) and heat capacity (22-27), missing where the first is `nan`. -/
structure Row where
  rho : Option (Fin 5 → ℝ)
  mu : Option (Fin 6 → ℝ)
  cp : Option (Fin 6 → ℝ)

/-- Lines 1136-1156 of `volume.py` and 1163-1183 of `viscosity.py`: every solute in the table and column 12 not `nan`. `rows` are those of the solutes. -/
def offeredVolume (rows : List (Option Row)) : Bool := rows.all fun r => match r with | some r => r.mu.isSome | none => false

@[inherit_doc offeredVolume]
def offeredViscosity (rows : List (Option Row)) : Bool := rows.all fun r => match r with | some r => r.mu.isSome | none => false

/-- Lines 1475-1498 of `heat_capacity.py`: column 22. -/
def offeredHeatCapacity (rows : List (Option Row)) : Bool := rows.all fun r => match r with | some r => r.cp.isSome | none => false

/-- Coefficients read by `Laliberte_density` (589-597): `none` is a `nan` among them. -/
def densityCoefs (rows : List (Option Row)) : Option (List (Fin 5 → ℝ)) := rows.mapM fun r => r.bind Row.rho

@[inherit_doc densityCoefs]
def viscosityCoefs (rows : List (Option Row)) : Option (List (Fin 6 → ℝ)) := rows.mapM fun r => r.bind Row.mu

/-- `ws.pop(self.index_w)`. -/
def popWater (ws : List ℝ) (i : ℕ) : List ℝ := ws.eraseIdx i

/-- `test_method_validity` of `viscosity.py` 1260-1268 and `thermal_conductivity.py` 735-741: `all` are the methods of the object, `special` the one for electrolytes, `fallback` the answer of the
following lines. -/
def validity {M : Type} [DecidableEq M] (all : List M) (special m : M) (fallback : Bool) : Bool :=
  if special ∈ all ∧ m ∈ all then m = special else fallback

/-- Limits of `ViscosityLiquidMixture` (`viscosity.py` 1189-1194) and `ThermalConductivityLiquidMixture` (`thermal_conductivity.py` 710-715). -/
noncomputable def limits {N : ℕ} [NeZero N] (Tmin Tmax : Fin N → ℝ) : ℝ × ℝ :=
  (univ.sup' univ_nonempty Tmin, univ.sup' univ_nonempty Tmax)

/-! ## Theorems: water -/

/-- **C111.** The viscosity of water is positive above 27.15 K and decreases with temperature from 228.15 K on. -/
theorem C111_water_viscosity : (∀ T, 27.15 < T → 0 < muW T) ∧ StrictAntiOn muW (Set.Ici 228.15) := by
  have hq : ∀ t : ℝ, 0 < (0.05594 * t + 5.2842) * t + 137.37 := fun t => by nlinarith [sq_nonneg (t + 47.23)]
  constructor
  · intro T hT
    have h1 : 0 < T - 273.15 + 246 := by linarith
    have := hq (T - 273.15)
    unfold muW
    dsimp only
    positivity
  · intro a ha b hb hab
    have ha' : (228.15 : ℝ) ≤ a := ha
    unfold muW
    dsimp only
    have h1 := hq (a - 273.15)
    have h2 := hq (b - 273.15)
    have h3 : (b - 273.15 + 246) / ((0.05594 * (b - 273.15) + 5.2842) * (b - 273.15) + 137.37) <
        (a - 273.15 + 246) / ((0.05594 * (a - 273.15) + 5.2842) * (a - 273.15) + 137.37) := by
      rw [div_lt_div_iff₀ h2 h1]
      obtain ⟨x, hx⟩ : ∃ x, a = x + 228.15 := ⟨a - 228.15, by ring⟩
      obtain ⟨y, hy⟩ : ∃ y, b = a + y := ⟨b - a, by ring⟩
      have hx0 : 0 ≤ x := by linarith
      have hy0 : 0 < y := by linarith
      rw [hy, hx]
      have : 0 < y * (0.05594 * x * x + 0.05594 * x * y + 22 * x + 11 * y + 1) := by positivity
      nlinarith [mul_nonneg hx0 hy0.le, mul_pos hy0 hy0, mul_nonneg (mul_nonneg hx0 hx0) hy0.le, mul_nonneg hx0 (mul_pos hy0 hy0).le]
    linarith

/-- Numerator of the derivative of the density. -/
noncomputable def slope (t : ℝ) : ℝ :=
  (-2.8054253e-10 * 5 * t ^ 4 + 1.0556302e-7 * 4 * t ^ 3 - 4.6170461e-5 * 3 * t ^ 2 - 0.0079870401 * 2 * t + 16.945176) * (1 + 0.01687985 * t) -
    (((((-2.8054253e-10 * t + 1.0556302e-7) * t - 4.6170461e-5) * t - 0.0079870401) * t + 16.945176) * t + 999.83952) * 0.01687985

theorem rhoW_deriv {T : ℝ} (hT : 273.15 ≤ T) : HasDerivAt rhoW (slope (T - 273.15) / (1 + 0.01687985 * (T - 273.15)) ^ 2) T := by
  have ht : HasDerivAt (fun T : ℝ => T - 273.15) 1 T := (hasDerivAt_id T).sub_const _
  have hd : (1 + 0.01687985 * (T - 273.15) : ℝ) ≠ 0 := by
    have : 0 ≤ T - 273.15 := by linarith
    positivity
  have hN : HasDerivAt (fun t : ℝ => ((((-2.8054253e-10 * t + 1.0556302e-7) * t - 4.6170461e-5) * t - 0.0079870401) * t + 16.945176) * t + 999.83952)
      (-2.8054253e-10 * 5 * (T - 273.15) ^ 4 + 1.0556302e-7 * 4 * (T - 273.15) ^ 3 - 4.6170461e-5 * 3 * (T - 273.15) ^ 2 - 0.0079870401 * 2 * (T - 273.15) + 16.945176)
      (T - 273.15) := by
    have hi := hasDerivAt_id (T - 273.15)
    have := ((((((((((hi.const_mul (-2.8054253e-10 : ℝ)).add_const (1.0556302e-7 : ℝ)).fun_mul hi).sub_const (4.6170461e-5 : ℝ)).fun_mul hi).sub_const
      (0.0079870401 : ℝ)).fun_mul hi).add_const (16.945176 : ℝ)).fun_mul hi).add_const (999.83952 : ℝ))
    refine this.congr_deriv ?_
    simp only [id]
    ring
  have hD : HasDerivAt (fun t : ℝ => 1 + 0.01687985 * t) 0.01687985 (T - 273.15) := by
    simpa using ((hasDerivAt_id (T - 273.15)).const_mul (0.01687985 : ℝ)).const_add 1
  have := (hN.fun_div hD hd).comp T ht
  refine (this.congr_deriv ?_)
  unfold slope
  ring

theorem slope_pos {t : ℝ} (h0 : 0 ≤ t) (h1 : t ≤ 3.98) : 0 < slope t := by
  have h2 : t ^ 2 ≤ 3.98 * t := by nlinarith
  have h3 : t ^ 3 ≤ 3.98 ^ 2 * t := by nlinarith [mul_nonneg h0 h0]
  have h4 : 0 ≤ t ^ 4 := by positivity
  have h5 : t ^ 5 ≤ 3.98 ^ 4 * t := by
    have : t ^ 4 ≤ 3.98 ^ 4 := pow_le_pow_left₀ h0 h1 4
    nlinarith
  unfold slope
  ring_nf
  nlinarith

theorem slope_neg {t : ℝ} (h0 : 3.99 ≤ t) (h1 : t ≤ 100) : slope t < 0 := by
  have hp : 0 ≤ t := by linarith
  have h2 : 3.99 * t ≤ t ^ 2 := by nlinarith
  have h3 : 0 ≤ t ^ 3 := by positivity
  have h4 : t ^ 4 ≤ 100 * t ^ 3 := by nlinarith
  have h5 : 0 ≤ t ^ 5 := by positivity
  unfold slope
  ring_nf
  nlinarith

/-- **C111.** The density of water increases from 0 °C to 3.98 °C and decreases from 3.99 °C to 100 °C. -/
theorem C111_water_density : StrictMonoOn rhoW (Set.Icc 273.15 277.13) ∧ StrictAntiOn rhoW (Set.Icc 277.14 373.15) := by
  have pos : ∀ T : ℝ, 273.15 ≤ T → 0 < (1 + 0.01687985 * (T - 273.15)) ^ 2 := by
    intro T hT
    have : 0 ≤ T - 273.15 := by linarith
    positivity
  constructor
  · apply strictMonoOn_of_deriv_pos (convex_Icc _ _)
    · intro T hT
      exact (rhoW_deriv hT.1).continuousAt.continuousWithinAt
    · intro T hT
      rw [interior_Icc] at hT
      have h1 : (273.15 : ℝ) ≤ T := by linarith [hT.1]
      rw [(rhoW_deriv h1).deriv]
      exact div_pos (slope_pos (by linarith) (by linarith [hT.2])) (pos T h1)
  · apply strictAntiOn_of_deriv_neg (convex_Icc _ _)
    · intro T hT
      exact (rhoW_deriv (by linarith [hT.1])).continuousAt.continuousWithinAt
    · intro T hT
      rw [interior_Icc] at hT
      have h1 : (273.15 : ℝ) ≤ T := by linarith [hT.1]
      rw [(rhoW_deriv h1).deriv]
      exact div_neg_of_neg_of_pos (slope_neg (by linarith [hT.1]) (by linarith [hT.2])) (pos T h1)

/-- **C111.** Water at 25 °C: density within 997.04 and 997.05 kg/m³, viscosity within 0.889 and 0.891 mPa·s. -/
theorem C111_water_25 : 997.04 < rhoW 298.15 ∧ rhoW 298.15 < 997.05 ∧ 0.000889 < muW 298.15 ∧ muW 298.15 < 0.000891 := by
  unfold rhoW muW
  norm_num

/-! ## Theorems: mixtures -/

section
variable {N : ℕ}

/-- **C111.** Without solutes density, viscosity and heat capacity are those of water. -/
theorem C111_no_solute (T : ℝ) (hT : 27.15 < T) (sat cheb : ℝ → ℝ) (c : Fin N → Fin 5 → ℝ) (v a : Fin N → Fin 6 → ℝ) :
    rhoMix T (fun _ => 0) c = rhoW T ∧ muMix T (fun _ => 0) v = muW T ∧ cpMix sat cheb T (fun _ => 0) a = cpW sat cheb T := by
  refine ⟨?_, ?_, ?_⟩
  · simp [rhoMix]
  · simp [muMix]
    ring
  · simp [cpMix]

theorem muI_pos (T w : ℝ) (v : Fin 6 → ℝ) (hw : w ≤ 1) (hv : 0 ≤ v 4) : 0 < muI T w v := by
  have : 0 ≤ (1 - w) ^ v 5 := rpow_nonneg (by linarith) _
  unfold muI
  dsimp only
  positivity

/-- **C111.** The logarithm of the viscosity (in mPa·s) is the average of those of water and solutes with the mass fractions, water having what is left to one. -/
theorem C111_viscosity (T : ℝ) (hT : 27.15 < T) (ws : Fin N → ℝ) (v : Fin N → Fin 6 → ℝ) (hw : ∀ i, 0 ≤ ws i) (hv : ∀ i, 0 ≤ v i 4) :
    0 < muMix T ws v ∧
    log (1000 * muMix T ws v) = (1 - ∑ i, ws i) * log (1000 * muW T) + ∑ i, ws i * log (1000 * muI T (1 - ∑ i, ws i) (v i)) := by
  have h0 : 0 < muW T := C111_water_viscosity.1 T hT
  have hs : 0 ≤ ∑ i, ws i := sum_nonneg fun i _ => hw i
  have hi : ∀ i, 0 < muI T (1 - ∑ i, ws i) (v i) := fun i => muI_pos _ _ _ (by linarith) (hv i)
  have hp : 0 < ∏ i, (muI T (1 - ∑ i, ws i) (v i) * 1000) ^ ws i := prod_pos fun i _ => rpow_pos_of_pos (by linarith [hi i]) _
  have hm : 0 < (muW T * 1000) ^ (1 - ∑ i, ws i) := rpow_pos_of_pos (by positivity) _
  constructor
  · unfold muMix
    dsimp only
    positivity
  · have : 1000 * muMix T ws v = (muW T * 1000) ^ (1 - ∑ i, ws i) * ∏ i, (muI T (1 - ∑ i, ws i) (v i) * 1000) ^ ws i := by
      unfold muMix
      dsimp only
      ring
    rw [this, log_mul hm.ne' hp.ne', log_rpow (by positivity), mul_comm (muW T)]
    congr 1
    rw [log_prod fun i _ => (rpow_pos_of_pos (by linarith [hi i]) _).ne']
    exact sum_congr rfl fun i _ => by rw [log_rpow (by linarith [hi i]), mul_comm (muI _ _ _)]

example : 0 < muMix 298.15 ![0.1] ![![16.2, 1.3, 1.5, 0.007, 30.8, 2.1]] :=
  (C111_viscosity 298.15 (by norm_num) _ _ (fun i => by fin_cases i; norm_num) (fun i => by fin_cases i; simp; norm_num)).1

/-- **C111.** The specific volume is the average of those of water and solutes; the density lies between any bounds on theirs. -/
theorem C111_density (T lo hi : ℝ) (ws : Fin N → ℝ) (c : Fin N → Fin 5 → ℝ) (hw : ∀ i, 0 ≤ ws i) (hs : ∑ i, ws i ≤ 1) (hlo : 0 < lo)
    (h0 : lo ≤ rhoW T ∧ rhoW T ≤ hi) (h1 : ∀ i, lo ≤ rhoI T (1 - ∑ i, ws i) (c i) ∧ rhoI T (1 - ∑ i, ws i) (c i) ≤ hi) :
    1 / rhoMix T ws c = (1 - ∑ i, ws i) * (1 / rhoW T) + ∑ i, ws i * (1 / rhoI T (1 - ∑ i, ws i) (c i)) ∧
    lo ≤ rhoMix T ws c ∧ rhoMix T ws c ≤ hi := by
  have e : rhoMix T ws c = 1 / ((1 - ∑ i, ws i) * (1 / rhoW T) + ∑ i, ws i * (1 / rhoI T (1 - ∑ i, ws i) (c i))) := by
    unfold rhoMix
    dsimp only
    simp only [mul_one_div]
  have hhi : 0 < hi := by linarith [h0.1, h0.2]
  have b : ∀ r : ℝ, lo ≤ r ∧ r ≤ hi → 1 / hi ≤ 1 / r ∧ 1 / r ≤ 1 / lo := fun r hr =>
    ⟨one_div_le_one_div_of_le (by linarith [hr.1]) hr.2, one_div_le_one_div_of_le hlo hr.1⟩
  have hw0 : 0 ≤ 1 - ∑ i, ws i := by linarith
  have hup : (1 - ∑ i, ws i) * (1 / rhoW T) + ∑ i, ws i * (1 / rhoI T (1 - ∑ i, ws i) (c i)) ≤ 1 / lo := by
    have h2 := mul_le_mul_of_nonneg_left (b _ h0).2 hw0
    have h3 : ∑ i, ws i * (1 / rhoI T (1 - ∑ i, ws i) (c i)) ≤ ∑ i, ws i * (1 / lo) :=
      sum_le_sum fun i _ => mul_le_mul_of_nonneg_left (b _ (h1 i)).2 (hw i)
    rw [← sum_mul] at h3
    linarith
  have hdn : 1 / hi ≤ (1 - ∑ i, ws i) * (1 / rhoW T) + ∑ i, ws i * (1 / rhoI T (1 - ∑ i, ws i) (c i)) := by
    have h2 := mul_le_mul_of_nonneg_left (b _ h0).1 hw0
    have h3 : ∑ i, ws i * (1 / hi) ≤ ∑ i, ws i * (1 / rhoI T (1 - ∑ i, ws i) (c i)) :=
      sum_le_sum fun i _ => mul_le_mul_of_nonneg_left (b _ (h1 i)).1 (hw i)
    rw [← sum_mul] at h3
    linarith
  have hp : 0 < 1 / hi := by positivity
  rw [e]
  refine ⟨by rw [one_div_one_div], ?_, ?_⟩
  · rw [le_div_iff₀ (by linarith)]
    have := mul_le_mul_of_nonneg_left hup hlo.le
    rwa [mul_one_div_cancel hlo.ne'] at this
  · rw [div_le_iff₀ (by linarith)]
    have := mul_le_mul_of_nonneg_left hdn hhi.le
    rwa [mul_one_div_cancel hhi.ne'] at this

example : 900 ≤ rhoMix 298.15 ![0.1] ![![0, 1000, 0.9, 0, -25]] ∧ rhoMix 298.15 ![0.1] ![![0, 1000, 0.9, 0, -25]] ≤ 1000 := by
  refine (C111_density 298.15 900 1000 _ _ (fun i => by fin_cases i; norm_num) (by norm_num) (by norm_num) ⟨by linarith [C111_water_25.1], by linarith [C111_water_25.2.1]⟩
    (fun i => ?_)).2
  fin_cases i
  simp [rhoI]
  norm_num

/-- **C111.** The heat capacity is the average of those of water and solutes, and does not change with temperature below -15 °C. -/
theorem C111_heat_capacity (sat cheb : ℝ → ℝ) (T : ℝ) (ws : Fin N → ℝ) (a : Fin N → Fin 6 → ℝ) :
    cpMix sat cheb T ws a = (1 - ∑ i, ws i) * cpW sat cheb T + ∑ i, ws i * cpI T (1 - ∑ i, ws i) (a i) ∧
    (T ≤ 258.15 → cpMix sat cheb T ws a = cpMix sat cheb 258.15 ws a) := by
  refine ⟨rfl, fun hT => ?_⟩
  rcases eq_or_lt_of_le hT with rfl | h
  · rfl
  have h1 : T < 273.15 - 15 := by linarith
  have h2 : ¬ (258.15 : ℝ) < 273.15 - 15 := by norm_num
  have h3 : ¬ T > 365.1800756083714 := by
    intro h4
    norm_num at h4 h1
    linarith
  have h4 : ¬ (258.15 : ℝ) > 365.1800756083714 := by norm_num
  have e1 : cpW sat cheb T = cpW sat cheb 258.15 := by
    unfold cpW
    rw [if_neg h3, if_neg h4, if_pos h1, if_neg h2]
    norm_num
  have e2 : ∀ w b, cpI T w b = cpI 258.15 w b := by
    intro w b
    unfold cpI
    rw [if_pos h1, if_neg h2]
    norm_num
  unfold cpMix
  simp only [e1, e2]

/-- **C111.** The argument of the fit is minus one at -15 °C, where the temperature is held, up to rounding of the constant. -/
theorem C111_fit_range : |0.012903225806451612892 * (273.15 - 15 - 335.64999999999997726) - (-1)| < (1e-15 : ℝ) := by
  rw [abs_lt]
  norm_num

/-- **C111.** The thermal conductivity in the units of the paper: mass fractions in percent, pressure in MPa. Without solutes it is that of water. -/
theorem C111_thermal_conductivity (T P kw : ℝ) (ws A : Fin N → ℝ) :
    magomedov T P ws A kw = kw * (1 - ∑ i, A i * (100 * ws i + 2e-4 * (100 * ws i) ^ 3)) - 2e-8 * (P / 1000000) * T * ∑ i, 100 * ws i ∧
    magomedov T P (fun _ => 0) A kw = kw := by
  constructor
  · unfold magomedov
    dsimp only
    have h1 : ∑ i, A i * (100 * ws i + 2e-4 * (100 * ws i) ^ 3) = (∑ i, A i * ws i * (1 + 2 * ws i * ws i)) * 100 := by
      rw [sum_mul]
      exact sum_congr rfl fun i _ => by ring
    rw [h1, ← mul_sum]
    ring
  · simp [magomedov]

/-- **C111.** Ionic strength: no charges, zero; a salt of `a` cations of charge `b` and `b` anions of charge `-a` at molality `m`: `m a b (a + b) / 2`. -/
theorem C111_ionic_strength (m : Fin N → ℝ) (z : Fin N → ℝ) (hm : ∀ i, 0 ≤ m i) :
    0 ≤ ionicStrength m z ∧ (ionicStrength m z = 0 ↔ ∀ i, m i = 0 ∨ z i = 0) ∧
    ∀ c a b : ℝ, ionicStrength ![c * a, c * b] ![b, -a] = c * a * b * (a + b) / 2 := by
  have hn : ∀ i ∈ univ, 0 ≤ m i * z i * z i := fun i _ => by
    rw [mul_assoc]
    exact mul_nonneg (hm i) (mul_self_nonneg _)
  refine ⟨?_, ?_, fun c a b => ?_⟩
  · unfold ionicStrength
    have := sum_nonneg hn
    positivity
  · unfold ionicStrength
    rw [mul_eq_zero, sum_eq_zero_iff_of_nonneg hn]
    constructor
    · rintro (h | h)
      · norm_num at h
      · intro i
        simpa [or_assoc] using h i (mem_univ i)
    · intro h
      right
      intro i _
      rcases h i with h | h <;> simp [h]
  · simp [ionicStrength, Fin.sum_univ_two]
    ring

/-- **C111.** The dilute conductivity is the sum of ion concentrations times coefficients, so that water with coefficient zero does not count. -/
theorem C111_dilute (k z : Fin N → ℝ) (rhom zw : ℝ) :
    diluteConductivity k z rhom = ∑ i, (rhom * z i) * k i ∧
    diluteConductivity (Fin.cons 0 k) (Fin.cons zw z : Fin (N + 1) → ℝ) rhom = diluteConductivity k z rhom := by
  constructor
  · unfold diluteConductivity
    rw [mul_sum]
    exact sum_congr rfl fun i _ => by ring
  · simp [diluteConductivity, Fin.sum_univ_succ]

end

/-- **C111.** Conductivity after McCleskey with quadratic coefficients: `κ = Λ C` with the documented molar conductivity; none in pure water. -/
theorem C111_mcCleskey (T M c1 c2 c3 d1 d2 d3 B mult rho : ℝ) :
    mcCleskey T M [c1, c2, c3] [d1, d2, d3] B mult rho
      = mult * (c1 * (T - 273.15) ^ 2 + c2 * (T - 273.15) + c3 - (d1 * (T - 273.15) ^ 2 + d2 * (T - 273.15) + d3) * (√M / (1 + B * √M))) * (M * rho) / 10000 ∧
    mcCleskey T 0 [c1, c2, c3] [d1, d2, d3] B mult rho = 0 := by
  constructor
  · unfold mcCleskey
    dsimp only
    have : M ^ (0.5 : ℝ) = √M := by
      rw [sqrt_eq_rpow]
      norm_num
    rw [this]
    simp only [horner, List.foldl]
    ring
  · simp [mcCleskey]

/-- **C111.** The ion product after Marshall and Franck. -/
theorem C111_Kw_1981 (T rho : ℝ) :
    logb 10 (kw1981 T rho) = -4.098 - 3245.2 / T + 2.2362e5 / T ^ 2 - 3.984e7 / T ^ 3 + (13.957 - 1262.3 / T + 8.5641e5 / T ^ 2) * logb 10 (rho / 1000) := by
  unfold kw1981
  dsimp only
  rw [logb_rpow (by norm_num) (by norm_num)]
  have : rho * 1e-3 = rho / 1000 := by ring
  rw [this]
  ring

/-- **C111.** The ion product of the vapor. -/
theorem C111_Kw_gas (T : ℝ) : -logb 10 (kwGas T) = 0.61415 + 48251.33 / T - 67707.93 / T ^ 2 + 10102100 / T ^ 3 := by
  unfold kwGas
  rw [logb_rpow (by norm_num) (by norm_num)]
  ring

/-- **C111.** Both formulations of the ion product of liquid water: the documented equation, with `-3.4887…` for the doubled logarithm of the molecular weight. At density zero only the vapor's product and the
molecular weight remain. -/
theorem C111_Kw (k : KwCoef) (T rho : ℝ) :
    (let r := rho / 1000
     let Q := r * exp (k.a0 + k.a1 / T + k.a2 / T ^ 2 * r ^ (2 / 3 : ℝ));
     -logb 10 (kwLiquid k T rho) = -12 * (logb 10 (1 + Q) - Q / (Q + 1) * r * (k.b0 + k.b1 / T + k.b2 * r)) - logb 10 (kwGas T) - 3.48871854562233) ∧
    -logb 10 (kwLiquid k T 0) = -logb 10 (kwGas T) - 3.48871854562233 := by
  have h : ∀ rho, (let r := rho / 1000
     let Q := r * exp (k.a0 + k.a1 / T + k.a2 / T ^ 2 * r ^ (2 / 3 : ℝ));
     -logb 10 (kwLiquid k T rho) = -12 * (logb 10 (1 + Q) - Q / (Q + 1) * r * (k.b0 + k.b1 / T + k.b2 * r)) - logb 10 (kwGas T) - 3.48871854562233) := by
    intro rho
    unfold kwLiquid
    dsimp only
    rw [logb_rpow (by norm_num) (by norm_num)]
    have : rho * 1e-3 = rho / 1000 := by ring
    rw [this, ← pow_two T]
    ring
  refine ⟨h rho, ?_⟩
  have := h 0
  simpa using this

/-- **C111.** The two formulations with the coefficients published for them; those of the second are not the ones its documentation lists, which are the first's. -/
theorem C111_Kw_coefficients (T rho : ℝ) :
    (let r := rho / 1000
     let Q := r * exp (-0.864671 + 8659.19 / T - 22786.2 / T ^ 2 * r ^ (2 / 3 : ℝ));
     -logb 10 (kwLiquid iapws T rho) = -12 * (logb 10 (1 + Q) - Q / (Q + 1) * r * (0.642044 - 56.8534 / T - 0.375754 * r)) - logb 10 (kwGas T) - 3.48871854562233) ∧
    (let r := rho / 1000
     let Q := r * exp (1.14387 + 7923.28 / T + 96276.7 / T ^ 2 * r ^ (2 / 3 : ℝ));
     -logb 10 (kwLiquid arcis T rho) = -12 * (logb 10 (1 + Q) - Q / (Q + 1) * r * (2.00935 - 3.87984 / T - 1.542 * r)) - logb 10 (kwGas T) - 3.48871854562233) := by
  refine ⟨?_, ?_⟩
  · have h := (C111_Kw iapws T rho).1
    dsimp only at h ⊢
    rw [h]
    simp only [iapws]
    rw [show (-22786.2 : ℝ) / T ^ 2 * (rho / 1000) ^ (2 / 3 : ℝ) = -(22786.2 / T ^ 2 * (rho / 1000) ^ (2 / 3 : ℝ)) by ring,
      show (-56.8534 : ℝ) / T = -(56.8534 / T) by ring, show (-0.375754 : ℝ) * (rho / 1000) = -(0.375754 * (rho / 1000)) by ring, ← sub_eq_add_neg, ← sub_eq_add_neg, ← sub_eq_add_neg]
  · have h := (C111_Kw arcis T rho).1
    dsimp only at h ⊢
    rw [h]
    simp only [arcis]
    rw [show (-3.87984 : ℝ) / T = -(3.87984 / T) by ring, show (-1.542 : ℝ) * (rho / 1000) = -(1.542 * (rho / 1000)) by ring, ← sub_eq_add_neg, ← sub_eq_add_neg]

/-- **C111 fails.** The documentation of the second formulation lists the coefficients of the first. -/
theorem C111_Kw_documented_fails : arcis.a0 ≠ iapws.a0 ∧ arcis.a1 ≠ iapws.a1 ∧ arcis.a2 ≠ iapws.a2 ∧ arcis.b0 ≠ iapws.b0 ∧ arcis.b1 ≠ iapws.b1 ∧ arcis.b2 ≠ iapws.b2 := by
  unfold arcis iapws
  norm_num

/-- **C111.** The documented equations of a solute at `t` °C and mass fraction `1 - c` of water: viscosity in mPa s. -/
theorem C111_solute (t c : ℝ) (v : Fin 6 → ℝ) :
    log (1000 * muI (t + 273.15) (1 - c) v * (v 4 * c ^ v 5 + 1)) * (v 3 * t + 1) = v 0 * c ^ v 1 + v 2 ∨ v 4 * c ^ v 5 + 1 = 0 ∨ v 3 * t + 1 = 0 := by
  by_cases h1 : v 4 * c ^ v 5 + 1 = 0
  · exact Or.inr (Or.inl h1)
  by_cases h2 : v 3 * t + 1 = 0
  · exact Or.inr (Or.inr h2)
  left
  have e : 1000 * muI (t + 273.15) (1 - c) v * (v 4 * c ^ v 5 + 1) = exp ((v 0 * c ^ v 1 + v 2) / (v 3 * t + 1)) := by
    unfold muI
    dsimp only
    rw [show t + 273.15 - 273.15 = t by ring, show 1 - (1 - c) = c by ring]
    field_simp
    norm_num
  rw [e, log_exp]
  field_simp

/-- **C111.** The documented heat capacity of a solute in kJ/kg/K from -15 °C on. -/
theorem C111_solute_heat_capacity (t c : ℝ) (a : Fin 6 → ℝ) (ht : -15 ≤ t) :
    cpI (t + 273.15) (1 - c) a / 1000 = a 0 * exp (a 1 * t + a 2 * exp (t / 100) + a 3 * c) + a 4 * c ^ a 5 := by
  unfold cpI
  dsimp only
  rw [if_neg (by norm_num; linarith), show t + 273.15 - 273.15 = t by ring, show 1 - (1 - c) = c by ring, show 0.01 * t = t / 100 by norm_num; ring]
  ring

example : cpI (20 + 273.15) (1 - 0.1) 1 / 1000 = 1 * exp (1 * 20 + 1 * exp (20 / 100) + 1 * 0.1) + 1 * 0.1 ^ (1 : ℝ) :=
  C111_solute_heat_capacity 20 0.1 1 (by norm_num)

/-- **C111.** The constant is twice the decimal logarithm of 0.018015268 to within `10⁻³`. -/
theorem C111_Kw_constant : |(-3.48871854562233 : ℝ) - 2 * logb 10 (18.015268 / 1000)| < 1e-3 := by
  have h1 : logb 10 (18.015268 / 1000) * 43 < -75 := by
    rw [mul_comm, ← logb_rpow_eq_mul_logb_of_pos (by norm_num), logb_lt_iff_lt_rpow (by norm_num) (by positivity)]
    have e1 : (18.015268 / 1000 : ℝ) ^ (43 : ℝ) = (18.015268 / 1000) ^ 43 := by exact_mod_cast rpow_natCast (18.015268 / 1000 : ℝ) 43
    have e2 : (10 : ℝ) ^ (-75 : ℝ) = 1 / 10 ^ 75 := by
      rw [rpow_neg (by norm_num), one_div]
      congr 1
      exact_mod_cast rpow_natCast (10 : ℝ) 75
    rw [e1, e2]
    norm_num
  have h2 : -82 < logb 10 (18.015268 / 1000) * 47 := by
    rw [mul_comm, ← logb_rpow_eq_mul_logb_of_pos (by norm_num), lt_logb_iff_rpow_lt (by norm_num) (by positivity)]
    have e1 : (18.015268 / 1000 : ℝ) ^ (47 : ℝ) = (18.015268 / 1000) ^ 47 := by exact_mod_cast rpow_natCast (18.015268 / 1000 : ℝ) 47
    have e2 : (10 : ℝ) ^ (-82 : ℝ) = 1 / 10 ^ 82 := by
      rw [rpow_neg (by norm_num), one_div]
      congr 1
      exact_mod_cast rpow_natCast (10 : ℝ) 82
    rw [e1, e2]
    norm_num
  rw [abs_lt]
  constructor
  · norm_num
    linarith
  · norm_num
    linarith

/-! ## Theorems: tables and mixture objects -/

/-- **C111 (partial).** Every call of a function that loads the tables succeeds, and after one all calls do. Missing: `thermal_conductivity_Magomedov` as the first; see `C111_load_fails`. -/
theorem C111_load_partial (loaded : Bool) (l : List Reader) :
    (∀ b ∈ calls true l, b = true) ∧ calls loaded (.loading :: l) = true :: calls true l := by
  refine ⟨?_, rfl⟩
  induction l with
  | nil => simp [calls]
  | cons r l ih =>
    intro b hb
    cases r <;> simp only [calls, call, List.mem_cons] at hb <;> rcases hb with rfl | hb
    · rfl
    · exact ih b hb
    · rfl
    · exact ih b hb

/-- **C111 fails.** `thermal_conductivity_Magomedov` does not load the tables: called first it raises, called after any other function it works. -/
theorem C111_load_fails : calls false [.magomedov] = [false] ∧ calls false [.magomedov, .loading] = [false, true] ∧ calls false [.loading, .magomedov] = [true, true] := by decide

theorem mapM_isSome {α β : Type} (f : α → Option β) (l : List α) : (l.mapM f).isSome = l.all fun a => (f a).isSome := by
  induction l with
  | nil => rfl
  | cons a l ih =>
    rw [List.mapM_cons, List.all_cons, ← ih]
    cases f a <;> cases l.mapM f <;> rfl

/-- **C111.** The viscosity object offers the method exactly if coefficients of all solutes are there. -/
theorem C111_offered_viscosity (rows : List (Option Row)) : offeredViscosity rows = (viscosityCoefs rows).isSome := by
  unfold offeredViscosity viscosityCoefs
  rw [mapM_isSome]
  congr 1
  funext r
  cases r <;> rfl

/-- **C111.** The heat capacity object offers it exactly if all solutes are in the table with heat capacity coefficients. -/
theorem C111_offered_heat_capacity (rows : List (Option Row)) : offeredHeatCapacity rows = true ↔ ∀ r ∈ rows, ∃ x c, r = some x ∧ x.cp = some c := by
  unfold offeredHeatCapacity
  rw [List.all_eq_true]
  refine forall₂_congr fun r _ => ?_
  cases r with
  | none => simp
  | some x => simp [Option.isSome_iff_exists]

example : offeredHeatCapacity [some ⟨none, none, some 0⟩] = true := (C111_offered_heat_capacity _).2 (by simp)

/-- **C111 (partial).** So does the volume object if density and viscosity coefficients of the solutes are there or missing together. Missing: other solutes; see `C111_offered_fails`. -/
theorem C111_offered_partial (rows : List (Option Row)) (h : ∀ r ∈ rows, ∀ x, r = some x → x.mu.isSome = x.rho.isSome) :
    offeredVolume rows = (densityCoefs rows).isSome := by
  unfold offeredVolume densityCoefs
  rw [mapM_isSome]
  induction rows with
  | nil => rfl
  | cons r l ih =>
    rw [List.all_cons, List.all_cons, ih fun r hr => h r (List.mem_cons_of_mem _ hr)]
    congr 1
    cases r with
    | none => rfl
    | some x => exact h _ List.mem_cons_self x rfl

example : offeredVolume [some ⟨some 0, some 0, none⟩] = (densityCoefs [some ⟨some 0, some 0, none⟩]).isSome :=
  C111_offered_partial _ (by simp)

/-- **C111 fails.** The volume object looks at the viscosity coefficients: a solute with these only is offered and its density is `nan`; one with density coefficients only is not offered. -/
theorem C111_offered_fails : ∃ r s : Row,
    offeredVolume [some r] = true ∧ densityCoefs [some r] = none ∧ offeredVolume [some s] = false ∧ (densityCoefs [some s]).isSome = true :=
  ⟨⟨none, some 0, none⟩, ⟨some 0, none, none⟩, rfl, rfl, rfl, rfl⟩

/-- **C111.** Mass fractions of sum one without the one of water leave it as what is missing to one: the correlations use the fraction of water that was given. -/
theorem C111_pop (ws : List ℝ) (i : ℕ) (hi : i < ws.length) (h : ws.sum = 1) :
    (popWater ws i).length = ws.length - 1 ∧ 1 - (popWater ws i).sum = ws[i] := by
  unfold popWater
  refine ⟨List.length_eraseIdx_of_lt hi, ?_⟩
  have h1 := List.sum_take_add_sum_drop ws i
  rw [List.eraseIdx_eq_take_drop_succ, List.sum_append, ← h, ← h1, List.drop_eq_getElem_cons hi, List.sum_cons]
  ring

example : 1 - (popWater [0.1, 0.7, 0.2] 1).sum = 0.7 := (C111_pop _ 1 (by simp) (by norm_num)).2

/-- **C111.** An object that offers the electrolyte method accepts no other of its methods. -/
theorem C111_validity {M : Type} [DecidableEq M] (all : List M) (special m : M) (fallback : Bool) :
    (special ∈ all → m ∈ all → (validity all special m fallback = true ↔ m = special)) ∧
    (special ∉ all → validity all special m fallback = fallback) := by
  constructor
  · intro h1 h2
    simp [validity, h1, h2]
  · intro h
    simp [validity, h]

/-- **C111 (partial).** The lower limit of the mixture objects is one at which all components are within theirs. -/
theorem C111_limits_partial {N : ℕ} [NeZero N] (Tmin Tmax : Fin N → ℝ) (T : ℝ) :
    (limits Tmin Tmax).1 ≤ T ↔ ∀ i, Tmin i ≤ T := by
  simp [limits]

/-- **C111 fails.** The upper limit is the largest, not the smallest: above the range of a component. -/
theorem C111_limits_fails : ∃ Tmin Tmax : Fin 2 → ℝ, (limits Tmin Tmax).1 ≤ 400 ∧ 400 ≤ (limits Tmin Tmax).2 ∧ ∃ i, Tmax i < 400 := by
  refine ⟨![200, 250], ![500, 350], ?_, ?_, 1, by norm_num⟩
  · rw [C111_limits_partial]
    intro i
    fin_cases i <;> norm_num
  · simp only [limits]
    rw [Finset.le_sup'_iff]
    exact ⟨0, mem_univ _, by norm_num⟩

end Verif.Electrolyte
