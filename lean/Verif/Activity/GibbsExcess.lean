import Verif.Util.Partial
import Mathlib.Analysis.SpecialFunctions.ExpDeriv
import Mathlib.Analysis.SpecialFunctions.Log.Deriv
import Mathlib.Analysis.Calculus.Deriv.Pow
import Mathlib.Algebra.BigOperators.Ring.Finset
import Mathlib.Tactic.NormNum

/-!
# Excess Gibbs energy models: common identities (`thermo/activity.py` 83-142, 454-990)

* C22: excess enthalpy, entropy and their derivatives.
* C23: activity coefficients are derivatives with respect to mole numbers; their derivatives.

A model is its excess Gibbs energy as a function of temperature and composition. Loops that add up
terms are finite sums.
-/

namespace Verif.GibbsExcess

open Real Finset

variable {N : ℕ}

/-! ## Model -/

/-- `HE` (473). -/
def HE (T GE dGE_dT : ℝ) : ℝ := -T * dGE_dT + GE

/-- `dHE_dT` (492), also `CpE` (494). -/
def dHE_dT (T d2GE_dT2 : ℝ) : ℝ := -T * d2GE_dT2

/-- `SE` (595). -/
noncomputable def SE (T HE GE : ℝ) : ℝ := (HE - GE) / T

/-- `dSE_dT` (638-639). -/
noncomputable def dSE_dT (T dGE_dT dHE_dT HE GE : ℝ) : ℝ :=
  let T_inv := 1 / T
  T_inv * (-dGE_dT + dHE_dT - (HE - GE) * T_inv)

/-- `gibbs_excess_dHE_dxs` (95-100). -/
def dHE_dxs (T : ℝ) (dGE_dxs d2GE_dTdxs : Fin N → ℝ) (i : Fin N) : ℝ := -T * d2GE_dTdxs i + dGE_dxs i

/-- `dSE_dxs` (668-670). -/
def dSE_dxs (d2GE_dTdxs : Fin N → ℝ) (i : Fin N) : ℝ := -d2GE_dTdxs i

/-- `dxs_to_dns` (external, documented as `∂F/∂n_i = ∂F/∂x_i − Σ x_j ∂F/∂x_j`). -/
def dxsToDns (dxs xs : Fin N → ℝ) (i : Fin N) : ℝ := dxs i - ∑ j, xs j * dxs j

/-- `dxs_to_dn_partials` (external, documented as `∂(nF)/∂n_i = ∂F/∂x_i + F − Σ x_j ∂F/∂x_j`). -/
def dxsToDnPartials (dxs xs : Fin N → ℝ) (F : ℝ) (i : Fin N) : ℝ := dxs i + (F - ∑ j, xs j * dxs j)

/-- `gibbs_excess_gammas` (83-93) with gas constant `R`; also `gammas` (876-881) up to the overflow
guard of `trunc_exp`. -/
noncomputable def gammas (R T GE : ℝ) (xs dG_dxs : Fin N → ℝ) (i : Fin N) : ℝ :=
  let xdx_totF := GE - ∑ j, xs j * dG_dxs j
  let RT_inv := (1 / R) / T
  exp ((dG_dxs i + xdx_totF) * RT_inv)

/-- `lngammas` (923-930). -/
noncomputable def lngammas (R T GE : ℝ) (xs dG_dxs : Fin N → ℝ) (i : Fin N) : ℝ :=
  dxsToDnPartials dG_dxs xs GE i * (1 / (R * T))

/-- `gibbs_excess_dgammas_dns` (103-124). -/
noncomputable def dgammas_dns (R T : ℝ) (xs gammas : Fin N → ℝ) (d2GE : Fin N → Fin N → ℝ)
    (i j : Fin N) : ℝ :=
  let vec0 := fun j => ∑ k, xs k * d2GE j k
  let RT_inv := (1 / R) / T
  (gammas i * RT_inv) * (d2GE i j - vec0 j)

/-- `gibbs_excess_dgammas_dT` (126-142). -/
noncomputable def dgammas_dT (R T GE dGE_dT : ℝ) (xs dG_dxs d2GE_dTdxs : Fin N → ℝ) (i : Fin N) : ℝ :=
  let xdx_totF0 := dGE_dT - ∑ j, xs j * d2GE_dTdxs j
  let xdx_totF1 := GE - ∑ j, xs j * dG_dxs j
  let T_inv := 1 / T
  let RT_inv := (1 / R) * T_inv
  let dG_dni := xdx_totF1 + dG_dxs i
  RT_inv * (d2GE_dTdxs i - dG_dni * T_inv + xdx_totF0) * exp (dG_dni * RT_inv)

/-! A concrete excess energy for the non-vacuity examples: `GE = x₀ x₁`. -/

/-- Composition derivatives of `x₀ x₁`. -/
def demoG (j : Fin 2) (x : Fin 2 → ℝ) : ℝ := if j = 0 then x 1 else x 0

/-- Second composition derivatives of `x₀ x₁`. -/
def demoH (i j : Fin 2) : ℝ := if i = j then 0 else 1

theorem demo_pd (x : Fin 2 → ℝ) (j : Fin 2) : PD (fun x => x 0 * x 1) j x (demoG j x) := by
  refine (PD.mul (PD.coord 0 j x) (PD.coord 1 j x)).congr_d ?_
  fin_cases j <;> simp [demoG]

theorem demo_pd2 (x : Fin 2 → ℝ) (i j : Fin 2) : PD (demoG i) j x (demoH i j) := by
  fin_cases i
  · refine (PD.coord 1 j x).congr_d ?_
    fin_cases j <;> simp [demoH]
  · refine (PD.coord 0 j x).congr_d ?_
    fin_cases j <;> simp [demoH]

theorem demo_diff (x : Fin 2 → ℝ) : DifferentiableAt ℝ (fun x : Fin 2 → ℝ => x 0 * x 1) x := by fun_prop

theorem demoG_diff (x : Fin 2 → ℝ) (i : Fin 2) : DifferentiableAt ℝ (demoG i) x := by
  by_cases hi : i = 0
  · have : demoG i = fun x => x 1 := by funext x; simp [demoG, hi]
    rw [this]; fun_prop
  · have : demoG i = fun x => x 0 := by funext x; simp [demoG, hi]
    rw [this]; fun_prop

/-! ## C22 -/

/-- **C22.** For every excess Gibbs energy with a second temperature derivative: `SE = −dGE/dT`,
`GE = HE − T SE`, and `dHE_dT`, `dSE_dT` are the derivatives of `HE` and `SE`. -/
theorem C22_identities (G G1 G2 : ℝ → ℝ) (hG : ∀ T, 0 < T → HasDerivAt G (G1 T) T)
    (hG1 : ∀ T, 0 < T → HasDerivAt G1 (G2 T) T) (T : ℝ) (hT : 0 < T) :
    SE T (HE T (G T) (G1 T)) (G T) = -G1 T ∧
    G T = HE T (G T) (G1 T) - T * SE T (HE T (G T) (G1 T)) (G T) ∧
    HasDerivAt (fun T => HE T (G T) (G1 T)) (dHE_dT T (G2 T)) T ∧
    HasDerivAt (fun T => SE T (HE T (G T) (G1 T)) (G T))
      (dSE_dT T (G1 T) (dHE_dT T (G2 T)) (HE T (G T) (G1 T)) (G T)) T := by
  have hT' := hT.ne'
  have hS : ∀ T, 0 < T → SE T (HE T (G T) (G1 T)) (G T) = -G1 T := by
    intro T hT
    have := hT.ne'
    simp only [SE, HE]
    field_simp
    ring
  refine ⟨hS T hT, ?_, ?_, ?_⟩
  · rw [hS T hT]; simp only [HE]; ring
  · have h := ((hasDerivAt_id T).neg.mul (hG1 T hT)).add (hG T hT)
    refine HasDerivAt.congr_deriv h ?_
    simp only [id, Pi.neg_apply, dHE_dT]
    ring
  · have he : (fun T => SE T (HE T (G T) (G1 T)) (G T)) =ᶠ[nhds T] fun T => -G1 T := by
      filter_upwards [isOpen_lt continuous_const continuous_id |>.mem_nhds hT] with S hS'
      exact hS S hS'
    refine ((hG1 T hT).neg.congr_of_eventuallyEq he).congr_deriv ?_
    simp only [dSE_dT, dHE_dT, HE]
    field_simp
    ring

example : ∃ G G1 G2 : ℝ → ℝ, (∀ T, 0 < T → HasDerivAt G (G1 T) T) ∧
    (∀ T, 0 < T → HasDerivAt G1 (G2 T) T) ∧ G2 300 ≠ 0 :=
  ⟨fun T => T ^ 2, fun T => 2 * T, fun _ => 2,
    fun T _ => by simpa using ((hasDerivAt_id T).fun_pow 2),
    fun T _ => by simpa using (hasDerivAt_id T).const_mul 2, by norm_num⟩

/-- **C22.** The composition derivatives of `HE` and `SE` are those of `HE` and `SE` as functions of
composition. -/
theorem C22_composition (T : ℝ) (hT : T ≠ 0) (G G1 : (Fin N → ℝ) → ℝ) (g g1 : Fin N → ℝ) (x : Fin N → ℝ)
    (hg : ∀ j, PD G j x (g j)) (hg1 : ∀ j, PD G1 j x (g1 j)) (j : Fin N) :
    PD (fun x => HE T (G x) (G1 x)) j x (dHE_dxs T g g1 j) ∧
    PD (fun x => SE T (HE T (G x) (G1 x)) (G x)) j x (dSE_dxs g1 j) := by
  have h := ((hg1 j).const_mul (-T)).add (hg j)
  refine ⟨h, ?_⟩
  have h2 : PD (fun x => (HE T (G x) (G1 x) - G x) * T⁻¹) j x ((dHE_dxs T g g1 j - g j) * T⁻¹) :=
    PD.mul_const T⁻¹ (PD.sub h (hg j))
  refine PD.congr_d h2 ?_
  simp only [dHE_dxs, dSE_dxs]
  field_simp
  ring

example (j : Fin 2) : PD (fun x => HE 300 (x 0 * x 1) (x 0 * x 1)) j ![1 / 4, 3 / 4]
    (dHE_dxs 300 (fun j => demoG j ![1 / 4, 3 / 4]) (fun j => demoG j ![1 / 4, 3 / 4]) j) :=
  (C22_composition 300 (by norm_num) _ _ _ _ _ (demo_pd _) (demo_pd _) j).1

/-- **C22.** The logarithms of the activity coefficients, weighted with the mole fractions, add up to
`GE/(RT)`. -/
theorem C22_sum_lngammas (R T GE : ℝ) (xs dG_dxs : Fin N → ℝ) (hx : ∑ i, xs i = 1) :
    (∑ i, xs i * log (gammas R T GE xs dG_dxs i)) = GE / (R * T) ∧
    ∀ i, log (gammas R T GE xs dG_dxs i) = lngammas R T GE xs dG_dxs i := by
  have h2 : ∀ i, log (gammas R T GE xs dG_dxs i) = lngammas R T GE xs dG_dxs i := by
    intro i
    simp only [gammas, lngammas, dxsToDnPartials, log_exp]
    ring
  refine ⟨?_, h2⟩
  simp only [h2, lngammas, dxsToDnPartials]
  have : ∀ i, xs i * ((dG_dxs i + (GE - ∑ j, xs j * dG_dxs j)) * (1 / (R * T)))
      = (xs i * dG_dxs i + xs i * (GE - ∑ j, xs j * dG_dxs j)) * (1 / (R * T)) := by intro i; ring
  simp only [this]
  rw [← sum_mul, sum_add_distrib, ← sum_mul, hx]
  ring

example : ∑ i : Fin 2, ![(1 / 4 : ℝ), 3 / 4] i = 1 := by simp [Fin.sum_univ_two]; norm_num

/-! ## C23 -/

/-- Total of the extensive quantity: `n F(n / Σn)` with `n` the total amount. -/
noncomputable def extensive (F : (Fin N → ℝ) → ℝ) (n : Fin N → ℝ) : ℝ :=
  (∑ i, n i) * F (fun i => n i / ∑ i, n i)

/-- The derivative with respect to an amount of a function of the mole fractions. -/
theorem pd_fraction {F : (Fin N → ℝ) → ℝ} {n : Fin N → ℝ} (hn : ∑ i, n i ≠ 0) {g : Fin N → ℝ}
    (hF : DifferentiableAt ℝ F (fun i => n i / ∑ i, n i))
    (hg : ∀ j, PD F j (fun i => n i / ∑ i, n i) (g j)) (j : Fin N) :
    PD (fun n => F (fun i => n i / ∑ i, n i)) j n
      ((g j - ∑ k, (n k / ∑ i, n i) * g k) / ∑ i, n i) := by
  set S := ∑ i, n i with hS
  have hsum : PD (fun n : Fin N → ℝ => ∑ i, n i) j n 1 := by
    have := PD.linear (fun _ => (1 : ℝ)) j n
    simpa using this
  have hi : ∀ i, PD (fun n : Fin N → ℝ => n i / ∑ i, n i) j n
      (((if i = j then 1 else 0) * S - n i * 1) / S ^ 2) := fun i =>
    PD.div (PD.coord i j n) hsum hn
  unfold PD
  have h := curve_deriv (F := F) (x := fun i => n i / S) hF hg
    (c := fun t i => Function.update n j t i / ∑ i, Function.update n j t i)
    (c' := fun i => ((if i = j then 1 else 0) * S - n i * 1) / S ^ 2) (t := n j)
    (by funext i; simp [hS]) hi
  refine HasDerivAt.congr_deriv h ?_
  have e : ∀ i, ((if i = j then (1 : ℝ) else 0) * S - n i * 1) / S ^ 2 * g i
      = (if i = j then g i else 0) * (1 / S) - (n i / S * g i) * (1 / S) := by
    intro i
    by_cases h : i = j
    · simp only [h, if_true]; field_simp
    · simp only [h, if_false]; field_simp; ring
  simp only [e, sum_sub_distrib, ← sum_mul]
  simp
  ring

/-- **C23.** `dns` and `dn_partials` conversions: at the mole fractions of any amounts, the partial
derivative of the extensive quantity with respect to an amount is `∂F/∂x_i + F − Σ x_k ∂F/∂x_k`, and the
activity coefficient is the exponential of that derivative of the excess Gibbs energy over `RT`. -/
theorem C23_gammas {R T : ℝ} {GE : (Fin N → ℝ) → ℝ} {n : Fin N → ℝ} (hn : ∑ i, n i ≠ 0) {g : Fin N → ℝ}
    (hF : DifferentiableAt ℝ GE (fun i => n i / ∑ i, n i))
    (hg : ∀ j, PD GE j (fun i => n i / ∑ i, n i) (g j)) (i : Fin N) :
    let xs : Fin N → ℝ := fun i => n i / ∑ i, n i
    ∃ d, PD (extensive GE) i n d ∧ d = dxsToDnPartials g xs (GE xs) i ∧
      gammas R T (GE xs) xs g i = exp (d / (R * T)) := by
  intro xs
  have hsum : PD (fun n : Fin N → ℝ => ∑ i, n i) i n 1 := by
    have := PD.linear (fun _ => (1 : ℝ)) i n
    simpa using this
  have h := PD.mul hsum (pd_fraction hn hF hg i)
  refine ⟨_, h, ?_, ?_⟩
  · simp only [dxsToDnPartials, xs]
    field_simp
    ring
  · simp only [gammas]
    congr 1
    simp only [xs]
    field_simp
    ring

example (i : Fin 2) : ∃ d, PD (extensive fun x => x 0 * x 1) i ![1, 3] d := by
  obtain ⟨d, h, _⟩ := C23_gammas (R := 8) (T := 300) (n := ![1, 3]) (by simp [Fin.sum_univ_two]; norm_num)
    (demo_diff _) (demo_pd _) i
  exact ⟨d, h⟩

/-- **C23.** The intensive conversion: for amounts adding up to one, the derivative of `F` of the mole
fractions with respect to an amount is `dxs_to_dns`. -/
theorem C23_dns {F : (Fin N → ℝ) → ℝ} {n : Fin N → ℝ} (hn : ∑ i, n i = 1) {g : Fin N → ℝ}
    (hF : DifferentiableAt ℝ F n) (hg : ∀ j, PD F j n (g j)) (i : Fin N) :
    PD (fun n => F (fun i => n i / ∑ i, n i)) i n (dxsToDns g n i) := by
  have e : (fun i => n i / ∑ i, n i) = n := by funext i; rw [hn, div_one]
  have h := pd_fraction (F := F) (n := n) (g := g) (by rw [hn]; norm_num) (by rw [e]; exact hF)
    (by rw [e]; exact hg) i
  refine h.congr_d ?_
  simp only [hn, div_one, dxsToDns]

example (i : Fin 2) := C23_dns (n := ![1 / 4, 3 / 4]) (by simp [Fin.sum_univ_two]; norm_num)
  (demo_diff _) (demo_pd _) i

/-- **C23 (Gibbs-Duhem).** For any second composition derivatives, at fixed temperature the changes of
the logarithms of the activity coefficients weighted with the mole fractions cancel. -/
theorem C23_gibbs_duhem {R T : ℝ} {GE : (Fin N → ℝ) → ℝ} {g : Fin N → (Fin N → ℝ) → ℝ}
    {h : Fin N → Fin N → ℝ} {x : Fin N → ℝ} (hx : ∑ i, x i = 1)
    (hg : ∀ j, PD GE j x (g j x)) (hh : ∀ i j, PD (g i) j x (h i j)) (j : Fin N) :
    ∃ d : Fin N → ℝ,
      (∀ i, PD (fun x => lngammas R T (GE x) x (fun k => g k x) i) j x (d i)) ∧
      ∑ i, x i * d i = 0 := by
  refine ⟨fun i => (h i j + (g j x - ∑ k, ((if k = j then 1 else 0) * g k x + x k * h k j)))
    * (1 / (R * T)), fun i => ?_, ?_⟩
  · refine PD.mul_const _ ((hh i j).add ((hg j).sub (PD.sum fun k _ => ?_)))
    exact PD.mul (PD.coord k j x) (hh k j)
  · have e : ∑ k, ((if k = j then (1 : ℝ) else 0) * g k x + x k * h k j)
        = g j x + ∑ k, x k * h k j := by
      rw [sum_add_distrib]; simp
    simp only [e]
    have : ∀ i, x i * ((h i j + (g j x - (g j x + ∑ k, x k * h k j))) * (1 / (R * T)))
        = (x i * h i j - x i * ∑ k, x k * h k j) * (1 / (R * T)) := by intro i; ring
    simp only [this]
    rw [← sum_mul, sum_sub_distrib, ← sum_mul, hx]
    ring

example (j : Fin 2) := C23_gibbs_duhem (R := 8) (T := 300) (x := ![1 / 4, 3 / 4])
  (by simp [Fin.sum_univ_two]; norm_num) (demo_pd _) (demo_pd2 _) j

/-- **C23.** The temperature derivative of the activity coefficients. -/
theorem C23_dgammas_dT (R : ℝ) (hR : R ≠ 0) (xs : Fin N → ℝ) (G G1 : ℝ → ℝ) (g g1 : ℝ → Fin N → ℝ)
    (T : ℝ) (hT : T ≠ 0) (hG : HasDerivAt G (G1 T) T)
    (hg : ∀ i, HasDerivAt (fun T => g T i) (g1 T i) T) (i : Fin N) :
    HasDerivAt (fun T => gammas R T (G T) xs (g T) i) (dgammas_dT R T (G T) (G1 T) xs (g T) (g1 T) i) T := by
  have hs : HasDerivAt (fun T => ∑ j, xs j * g T j) (∑ j, xs j * g1 T j) T :=
    HasDerivAt.fun_sum fun j _ => (hg j).const_mul (xs j)
  have hnum := (hg i).add (hG.sub hs)
  have hinv : HasDerivAt (fun T : ℝ => (1 / R) / T) (-(1 / R) / T ^ 2) T := by
    have := (hasDerivAt_inv hT).const_mul (1 / R)
    refine HasDerivAt.congr_deriv this ?_
    field_simp
  have h := (hnum.mul hinv).exp
  refine HasDerivAt.congr_deriv h ?_
  simp only [dgammas_dT, Pi.mul_apply, Pi.add_apply, Pi.sub_apply]
  rw [show (g T i + (G T - ∑ j, xs j * g T j)) * (1 / R / T)
    = (G T - ∑ j, xs j * g T j + g T i) * (1 / R * (1 / T)) by field_simp; ring]
  rw [mul_comm]
  congr 1
  field_simp
  ring

example (i : Fin 2) := C23_dgammas_dT (N := 2) 8 (by norm_num) ![1 / 4, 3 / 4] (fun T => 3 * T) (fun _ => 3 * 1)
  (fun T _ => 5 * T) (fun _ _ => 5 * 1) 300 (by norm_num) ((hasDerivAt_id _).const_mul 3)
  (fun _ => (hasDerivAt_id _).const_mul 5) i

/-- What the mole-number derivative of an activity coefficient is, for a twice differentiable excess
Gibbs energy: derivative of the logarithm (times `RT`) along an amount, at amounts adding up to one. -/
theorem lngamma_dn {R T : ℝ} {GE : (Fin N → ℝ) → ℝ} {g : Fin N → (Fin N → ℝ) → ℝ}
    {h : Fin N → Fin N → ℝ} {x : Fin N → ℝ} (hx : ∑ i, x i = 1)
    (hGd : DifferentiableAt ℝ GE x) (hgd : ∀ i, DifferentiableAt ℝ (g i) x)
    (hg : ∀ j, PD GE j x (g j x)) (hh : ∀ i j, PD (g i) j x (h i j)) (i j : Fin N) :
    PD (fun n => lngammas R T (GE fun i => n i / ∑ i, n i) (fun i => n i / ∑ i, n i)
        (fun k => g k fun i => n i / ∑ i, n i) i) j x
      ((h i j - (∑ k, x k * h k j) - (∑ m, x m * (h i m - ∑ k, x k * h k m))) / (R * T)) := by
  have hF : DifferentiableAt ℝ (fun x => lngammas R T (GE x) x (fun k => g k x) i) x := by
    unfold lngammas dxsToDnPartials
    fun_prop
  have hpd : ∀ m, PD (fun x => lngammas R T (GE x) x (fun k => g k x) i) m x
      ((h i m - ∑ k, x k * h k m) * (1 / (R * T))) := by
    intro m
    have := PD.mul_const (1 / (R * T)) ((hh i m).add ((hg m).sub (PD.sum (s := univ) fun k _ =>
      PD.mul (PD.coord k m x) (hh k m))))
    refine PD.congr_d this ?_
    rw [sum_add_distrib]
    simp only [ite_mul, one_mul, zero_mul, sum_ite_eq', mem_univ, if_true]
    ring
  have := C23_dns (F := fun x => lngammas R T (GE x) x (fun k => g k x) i) hx hF hpd j
  refine PD.congr_d this ?_
  simp only [dxsToDns]
  have : ∀ m, x m * ((h i m - ∑ k, x k * h k m) * (1 / (R * T)))
      = x m * (h i m - ∑ k, x k * h k m) * (1 / (R * T)) := by intro m; ring
  simp only [this]
  rw [← sum_mul]
  ring

/-- **C23 (partial).** `dgammas_dns` is the derivative of the activity coefficients with respect to
amounts when the row sums `Σ_k x_k ∂²GE/∂x_i∂x_k` are equal for all components and the second derivatives
are symmetric. This is so for expressions that are homogeneous of first order in the mole fractions up to
a multiple of `n ln n` (Wilson, NRTL, UNIQUAC, regular solution). Missing: other expressions, for which
it fails (`C23_dgammas_dns_fails`). -/
theorem C23_dgammas_dns_partial {R T : ℝ} (hR : R ≠ 0) (hT : T ≠ 0) {GE : (Fin N → ℝ) → ℝ}
    {g : Fin N → (Fin N → ℝ) → ℝ} {h : Fin N → Fin N → ℝ} {x : Fin N → ℝ} (hx : ∑ i, x i = 1)
    (hGd : DifferentiableAt ℝ GE x) (hgd : ∀ i, DifferentiableAt ℝ (g i) x)
    (hg : ∀ j, PD GE j x (g j x)) (hh : ∀ i j, PD (g i) j x (h i j)) (hsym : ∀ i j, h i j = h j i)
    (hrow : ∀ i j, ∑ k, x k * h i k = ∑ k, x k * h j k) (i j : Fin N) :
    PD (fun n => gammas R T (GE fun i => n i / ∑ i, n i) (fun i => n i / ∑ i, n i)
        (fun k => g k fun i => n i / ∑ i, n i) i) j x
      (dgammas_dns R T x (gammas R T (GE x) x fun k => g k x) h i j) := by
  have hl := lngamma_dn (R := R) (T := T) hx hGd hgd hg hh i j
  have e : (fun i => x i / ∑ i, x i) = x := by funext i; rw [hx, div_one]
  have hgl : (fun n : Fin N → ℝ => gammas R T (GE fun i => n i / ∑ i, n i) (fun i => n i / ∑ i, n i)
        (fun k => g k fun i => n i / ∑ i, n i) i)
      = fun n => exp (lngammas R T (GE fun i => n i / ∑ i, n i) (fun i => n i / ∑ i, n i)
        (fun k => g k fun i => n i / ∑ i, n i) i) := by
    funext n
    simp only [gammas, lngammas, dxsToDnPartials]
    congr 1
    field_simp
  rw [hgl]
  have hc := PD.comp (F := fun n => lngammas R T (GE fun i => n i / ∑ i, n i)
    (fun i => n i / ∑ i, n i) (fun k => g k fun i => n i / ∑ i, n i) i) (hasDerivAt_exp _) hl
  refine hc.congr_d ?_
  simp only [e]
  have hv : ∑ m, x m * (h i m - ∑ k, x k * h k m) = 0 := by
    simp only [mul_sub, sum_sub_distrib]
    have h1 : ∀ m, x m * ∑ k, x k * h k m = x m * ∑ k, x k * h i k := by
      intro m
      rw [hrow i m]
      congr 1
      exact sum_congr rfl fun k _ => by rw [hsym k m]
    simp only [h1, ← sum_mul]
    rw [hx, one_mul, sub_self]
  rw [hv]
  simp only [dgammas_dns]
  rw [show exp (lngammas R T (GE x) x (fun k => g k x) i) = gammas R T (GE x) x (fun k => g k x) i by
    simp only [gammas, lngammas, dxsToDnPartials]
    congr 1
    field_simp]
  rw [show ∑ k, x k * h k j = ∑ k, x k * h j k from sum_congr rfl fun k _ => by rw [hsym k j]]
  field_simp
  ring

example (i j : Fin 2) := C23_dgammas_dns_partial (R := 8) (T := 300) (by norm_num) (by norm_num)
  (x := ![1 / 2, 1 / 2]) (by simp [Fin.sum_univ_two]; norm_num) (demo_diff _) (demoG_diff _) (demo_pd _)
  (demo_pd2 _) (by intro i j; fin_cases i <;> fin_cases j <;> simp [demoH])
  (by intro i j; fin_cases i <;> fin_cases j <;> simp [demoH, Fin.sum_univ_two]) i j

/-- **C23, the claim fails** for the two-suffix Margules expression `GE = A x₀ x₁`, which is not
homogeneous of first order: at `x = (1/4, 3/4)` with `R T = 1`, `A = 1`, the code's derivative of
`ln γ₀` with respect to `n₁` is not the derivative. -/
theorem C23_dgammas_dns_fails :
    ∃ (GE : (Fin 2 → ℝ) → ℝ) (g : Fin 2 → (Fin 2 → ℝ) → ℝ) (h : Fin 2 → Fin 2 → ℝ) (x : Fin 2 → ℝ),
      ∑ i, x i = 1 ∧ DifferentiableAt ℝ GE x ∧ (∀ i, DifferentiableAt ℝ (g i) x) ∧
      (∀ j, PD GE j x (g j x)) ∧ (∀ i j, PD (g i) j x (h i j)) ∧ (∀ i j, h i j = h j i) ∧
      ¬ PD (fun n => gammas 1 1 (GE fun i => n i / ∑ i, n i) (fun i => n i / ∑ i, n i)
        (fun k => g k fun i => n i / ∑ i, n i) 0) 1 x
        (dgammas_dns 1 1 x (gammas 1 1 (GE x) x fun k => g k x) h 0 1) := by
  let x : Fin 2 → ℝ := ![1 / 4, 3 / 4]
  let GE : (Fin 2 → ℝ) → ℝ := fun x => x 0 * x 1
  let g : Fin 2 → (Fin 2 → ℝ) → ℝ := fun j x => if j = 0 then x 1 else x 0
  let h : Fin 2 → Fin 2 → ℝ := fun i j => if i = j then 0 else 1
  have hx : ∑ i, x i = 1 := by simp [x, Fin.sum_univ_two]; norm_num
  have hGd : DifferentiableAt ℝ GE x := by simp only [GE]; fun_prop
  have hgd : ∀ i, DifferentiableAt ℝ (g i) x := by
    intro i
    by_cases hi : i = 0
    · simp only [g, hi, if_true]; fun_prop
    · simp only [g, hi, if_false]; fun_prop
  have hg : ∀ j, PD GE j x (g j x) := by
    intro j
    refine (PD.mul (PD.coord 0 j x) (PD.coord 1 j x)).congr_d ?_
    fin_cases j <;> simp [g]
  have hh : ∀ i j, PD (g i) j x (h i j) := by
    intro i j
    fin_cases i
    · refine (PD.coord 1 j x).congr_d ?_
      fin_cases j <;> simp [h]
    · refine (PD.coord 0 j x).congr_d ?_
      fin_cases j <;> simp [h]
  refine ⟨GE, g, h, x, hx, hGd, hgd, hg, hh, ?_, ?_⟩
  · intro i j
    fin_cases i <;> fin_cases j <;> simp [h]
  · intro hbad
    have hl := lngamma_dn (R := 1) (T := 1) hx hGd hgd hg hh 0 1
    have e : (fun i => x i / ∑ i, x i) = x := by funext i; rw [hx, div_one]
    have hgl : (fun n : Fin 2 → ℝ => gammas 1 1 (GE fun i => n i / ∑ i, n i) (fun i => n i / ∑ i, n i)
          (fun k => g k fun i => n i / ∑ i, n i) 0)
        = fun n => exp (lngammas 1 1 (GE fun i => n i / ∑ i, n i) (fun i => n i / ∑ i, n i)
          (fun k => g k fun i => n i / ∑ i, n i) 0) := by
      funext n
      simp only [gammas, lngammas, dxsToDnPartials]
      congr 1
      norm_num
    rw [hgl] at hbad
    have hc := PD.comp (F := fun n => lngammas 1 1 (GE fun i => n i / ∑ i, n i)
      (fun i => n i / ∑ i, n i) (fun k => g k fun i => n i / ∑ i, n i) 0) (hasDerivAt_exp _) hl
    have hu := hbad.unique hc
    simp only [e, dgammas_dns] at hu
    rw [show exp (lngammas 1 1 (GE x) x (fun k => g k x) 0) = gammas 1 1 (GE x) x (fun k => g k x) 0 by
      simp only [gammas, lngammas, dxsToDnPartials]
      congr 1
      norm_num] at hu
    have hpos : gammas 1 1 (GE x) x (fun k => g k x) 0 ≠ 0 := (exp_pos _).ne'
    rw [one_div_one, div_one, mul_one] at hu
    have hu' := mul_left_cancel₀ hpos hu
    simp [Fin.sum_univ_two, h, x] at hu'
    norm_num at hu'

end Verif.GibbsExcess
