import Verif.Activity.GibbsExcess
import Mathlib.Algebra.BigOperators.Field
import Mathlib.Analysis.SpecialFunctions.Pow.Real

/-!
# The UNIFAC model (`thermo/unifac.py` 3661-5157, 5480-8808): equations, temperature derivatives, limits

C97. Loops that add up terms are finite sums. Groups are `Fin M`, components `Fin N`; dictionaries of group counts are matrices with
zeros for absent groups. The methods of the class are functions of temperature and mole fractions; that they are stored is not modelled
here.
-/

namespace Verif.Unifac

open Real Finset

variable {M N : ℕ}

/-- A matrix. -/
abbrev Mat (M N : ℕ) := Fin M → Fin N → ℝ

/-! ## Interaction terms (4022-4150) -/

/-- The reference temperature of versions 4 and 5. -/
noncomputable def T0 : ℝ := 29815 / 100

/-- Versions with the Lyngby form. -/
def lyngby (version : ℕ) : Prop := version = 4 ∨ version = 5

instance (v : ℕ) : Decidable (lyngby v) := inferInstanceAs (Decidable (v = 4 ∨ v = 5))

/-- An entry of `unifac_psis`. -/
noncomputable def psi (version : ℕ) (a b c T : ℝ) : ℝ :=
  if lyngby version then exp (-1 / T * (a + b * (T - T0) + c * (T * log (T0 / T) + T - T0)))
  else exp (a * (-1 / T) - b - c * T)

/-- An entry of `unifac_dpsis_dT`. -/
noncomputable def dpsi (version : ℕ) (a b c T psi : ℝ) : ℝ :=
  if lyngby version then
    psi * ((-1 / T + (T - T0) * (-1 / T * (-1 / T))) * b
      + c * (log (T0 / T) * (-1 / T) + (T * log (T0 / T) + T - T0) * (-1 / T * (-1 / T))) + a * (-1 / T * (-1 / T)))
  else psi * (a * (1 / (T * T)) - c)

/-- An entry of `unifac_d2psis_dT2`. -/
noncomputable def d2psi (version : ℕ) (a b c T psi : ℝ) : ℝ :=
  if lyngby version then
    let tf2 := a + b * (T - T0) + c * (T * log (T0 / T) + T - T0)
    let tf3 := b + c * log (T0 / T)
    let x1 := tf3 - tf2 * (1 / T)
    1 / T * (1 / T) * psi * (c + 2 * tf3 + x1 * x1 - 2 * tf2 * (1 / T))
  else
    let x0 := c + -1 / (T * T) * a
    (x0 * x0 + -2 / (T * T * T) * a) * psi

/-- An entry of `unifac_d3psis_dT3`. -/
noncomputable def d3psi (version : ℕ) (a b c T psi : ℝ) : ℝ :=
  if lyngby version then
    let tf2 := a + b * (T - T0) + c * (T * log (T0 / T) + T - T0)
    let tf3 := b + c * log (T0 / T)
    let x6 := tf2 * (1 / T)
    let x5 := tf3 - x6
    (-(1 / T)) * (1 / T) * (1 / T) * psi * (4 * c + 6 * tf3 + x5 * x5 * x5 + 3 * x5 * (c + tf3 + tf3 - 2 * x6) - 6 * x6)
  else
    let x0 := c + -1 / (T * T) * a
    (x0 * (6 / (T * T * T) * a - x0 * x0) + 6 / (T * T * T * T) * a) * psi

/-- **C97.** In the Lyngby versions `a` is the interaction at 298.15 K, where the other two parameters have no effect. -/
theorem C97_reference {version : ℕ} (h : lyngby version) (a b c : ℝ) :
    psi version a b c 298.15 = exp (-a / 298.15) := by
  have : T0 = 298.15 := by unfold T0; norm_num
  rw [psi, if_pos h, this, div_self (by norm_num), log_one]
  ring_nf

example : psi 4 100 3 7 298.15 = exp (-100 / 298.15) := C97_reference (.inl rfl) _ _ _

theorem log_T0_deriv {T : ℝ} (hT : 0 < T) : HasDerivAt (fun T => log (T0 / T)) (-1 / T) T := by
  have h0 : (0 : ℝ) < T0 := by unfold T0; norm_num
  have h := ((hasDerivAt_id' T).fun_inv hT.ne').const_mul T0
  have h2 := h.log (by positivity)
  have e : (fun T : ℝ => log (T0 * T⁻¹)) = fun T => log (T0 / T) := by funext T; rw [div_eq_mul_inv]
  rw [e] at h2
  refine h2.congr_deriv ?_
  have := hT.ne'
  have := h0.ne'
  field_simp

/-- **C97.** The temperature derivatives of the interaction terms are derivatives of each other, in all versions. -/
theorem C97_psi (version : ℕ) (a b c T : ℝ) (hT : 0 < T) :
    HasDerivAt (fun T => psi version a b c T) (dpsi version a b c T (psi version a b c T)) T
      ∧ HasDerivAt (fun T => dpsi version a b c T (psi version a b c T)) (d2psi version a b c T (psi version a b c T)) T
      ∧ HasDerivAt (fun T => d2psi version a b c T (psi version a b c T)) (d3psi version a b c T (psi version a b c T)) T := by
  have hT' := hT.ne'
  have hi : HasDerivAt (fun T : ℝ => 1 / T) (-(1 / T) * (1 / T)) T := by
    simp only [one_div]
    refine ((hasDerivAt_id' T).fun_inv hT').congr_deriv ?_
    field_simp
  by_cases hv : lyngby version
  · have hL := log_T0_deriv hT
    have hid := hasDerivAt_id' T
    have hB : HasDerivAt (fun T : ℝ => T * log (T0 / T) + T - T0) (log (T0 / T)) T := by
      refine (((hid.fun_mul hL).fun_add hid).sub_const T0).congr_deriv ?_
      field_simp
      ring
    have h2 : HasDerivAt (fun T : ℝ => a + b * (T - T0) + c * (T * log (T0 / T) + T - T0)) (b + c * log (T0 / T)) T := by
      refine ((((hid.sub_const T0).const_mul b).const_add a).fun_add (hB.const_mul c)).congr_deriv ?_
      ring
    have h3 : HasDerivAt (fun T : ℝ => b + c * log (T0 / T)) (-c * (1 / T)) T := by
      refine ((hL.const_mul c).const_add b).congr_deriv ?_
      field_simp
    -- everything in terms of two functions and the inverse of temperature
    have ep : (fun T => psi version a b c T) = fun T => exp (-(1 / T) * (a + b * (T - T0) + c * (T * log (T0 / T) + T - T0))) := by
      funext T; rw [psi, if_pos hv]; congr 1; ring
    have hp : HasDerivAt (fun T => psi version a b c T) (psi version a b c T * (-(1 / T) * ((b + c * log (T0 / T)) -
        (a + b * (T - T0) + c * (T * log (T0 / T) + T - T0)) * (1 / T)))) T := by
      rw [ep]
      refine ((hi.fun_neg.fun_mul h2).exp).congr_deriv ?_
      rw [congrFun ep T]
      ring
    have ed : ∀ T : ℝ, T ≠ 0 → dpsi version a b c T (psi version a b c T) = psi version a b c T * (-(1 / T) * ((b + c * log (T0 / T)) -
        (a + b * (T - T0) + c * (T * log (T0 / T) + T - T0)) * (1 / T))) := by
      intro T hT
      rw [dpsi, if_pos hv]
      field_simp
      ring
    have e2 : ∀ T : ℝ, d2psi version a b c T (psi version a b c T) = 1 / T * (1 / T) * psi version a b c T * (c + 2 * (b + c * log (T0 / T)) +
        ((b + c * log (T0 / T)) - (a + b * (T - T0) + c * (T * log (T0 / T) + T - T0)) * (1 / T)) * ((b + c * log (T0 / T)) - (a + b * (T - T0) + c * (T * log (T0 / T) + T - T0)) * (1 / T))
        - 2 * (a + b * (T - T0) + c * (T * log (T0 / T) + T - T0)) * (1 / T)) := by
      intro T; rw [d2psi, if_pos hv]
    have hne : ∀ᶠ t in nhds T, t ≠ 0 := isOpen_ne.mem_nhds hT'
    have hx : HasDerivAt (fun T => (b + c * log (T0 / T)) - (a + b * (T - T0) + c * (T * log (T0 / T) + T - T0)) * (1 / T))
        (-c * (1 / T) - ((b + c * log (T0 / T)) * (1 / T) + (a + b * (T - T0) + c * (T * log (T0 / T) + T - T0)) * (-(1 / T) * (1 / T)))) T :=
      h3.fun_sub (h2.fun_mul hi)
    generalize hA : a + b * (T - T0) + c * (T * log (T0 / T) + T - T0) = A at *
    generalize hC : b + c * log (T0 / T) = C at *
    refine ⟨?_, ?_, ?_⟩
    · rw [ed T hT', hA, hC]; exact hp
    · have := (hp.fun_mul (hi.fun_neg.fun_mul hx)).congr_of_eventuallyEq (hne.mono fun t ht => ed t ht)
      refine this.congr_deriv ?_
      rw [e2 T, hA, hC]
      ring
    · rw [show (fun T => d2psi version a b c T (psi version a b c T)) = _ from funext e2]
      have := ((hi.fun_mul hi).fun_mul hp).fun_mul ((((h3.const_mul 2).const_add c).fun_add (hx.fun_mul hx)).fun_sub ((h2.const_mul 2).fun_mul hi))
      refine this.congr_deriv ?_
      rw [d3psi, if_pos hv]
      dsimp only
      rw [hA, hC]
      ring
  · have ep : (fun T => psi version a b c T) = fun T => exp (-a * (1 / T) - b - c * T) := by
      funext T; rw [psi, if_neg hv]; congr 1; ring
    have hp : HasDerivAt (fun T => psi version a b c T) (psi version a b c T * (a * (1 / T * (1 / T)) - c)) T := by
      rw [ep]
      refine ((((hi.const_mul (-a)).sub_const b).fun_sub ((hasDerivAt_id' T).const_mul c)).exp).congr_deriv ?_
      rw [congrFun ep T]
      ring
    have ed : ∀ T : ℝ, dpsi version a b c T (psi version a b c T) = psi version a b c T * (a * (1 / T * (1 / T)) - c) := by
      intro T; rw [dpsi, if_neg hv, one_div_mul_one_div]
    have e2 : ∀ T : ℝ, d2psi version a b c T (psi version a b c T)
        = ((c - 1 / T * (1 / T) * a) * (c - 1 / T * (1 / T) * a) - 2 * (1 / T * (1 / T) * (1 / T)) * a) * psi version a b c T := by
      intro T; rw [d2psi, if_neg hv]
      simp only [one_div_mul_one_div]
      ring
    refine ⟨?_, ?_, ?_⟩
    · rw [ed T]; exact hp
    · rw [show (fun T => dpsi version a b c T (psi version a b c T)) = _ from funext ed]
      refine (hp.fun_mul (((hi.fun_mul hi).const_mul a).sub_const c)).congr_deriv ?_
      rw [e2 T]
      ring
    · rw [show (fun T => d2psi version a b c T (psi version a b c T)) = _ from funext e2]
      have hq := ((hi.fun_mul hi).mul_const a).const_sub c
      refine (((hq.fun_mul hq).fun_sub ((((hi.fun_mul hi).fun_mul hi).const_mul 2).mul_const a)).fun_mul hp).congr_deriv ?_
      rw [d3psi, if_neg hv]
      dsimp only
      simp only [show -1 / (T * T) = -(1 / T * (1 / T)) by field_simp, show 6 / (T * T * T) = 6 * (1 / T * (1 / T) * (1 / T)) by field_simp,
        show 6 / (T * T * T * T) = 6 * (1 / T * (1 / T) * (1 / T) * (1 / T)) by field_simp]
      ring

example : psi 0 100 0 0 1 = exp (-100) := by rw [psi, if_neg (by decide)]; congr 1; norm_num

/-- **C97.** Interaction terms are positive; missing parameters are zeros (5457-5460) and give one, as in `UNIFAC_psi` (3735). -/
theorem C97_psi_pos (version : ℕ) (a b c T : ℝ) : 0 < psi version a b c T ∧ psi version 0 0 0 T = 1 := by
  unfold psi
  constructor
  · split_ifs <;> exact exp_pos _
  · split_ifs <;> simp

/-! ## Groups (4214-4243, 4335-4393) -/

/-- `unifac_VSXS`. -/
def VSXS (vs : Mat M N) (xs : Fin N → ℝ) (i : Fin M) : ℝ := ∑ j, vs i j * xs j

/-- The second result of `unifac_Xs`. -/
noncomputable def XsSumInv (vs : Mat M N) (xs : Fin N → ℝ) : ℝ := 1 / ∑ i, ∑ j, vs i j * xs j

/-- `unifac_Xs`. -/
noncomputable def Xs (vs : Mat M N) (xs : Fin N → ℝ) (i : Fin M) : ℝ := (∑ j, vs i j * xs j) * XsSumInv vs xs

/-- The second result of `unifac_Thetas`. -/
noncomputable def thetaSumInv (Xs Qs : Fin M → ℝ) : ℝ := 1 / ∑ i, Xs i * Qs i

/-- `unifac_Thetas`. -/
noncomputable def thetas (Xs Qs : Fin M → ℝ) (i : Fin M) : ℝ := Qs i * Xs i * thetaSumInv Xs Qs

/-- `unifac_Theta_Psi_sums`, also with derivatives of the interaction terms. -/
def thetaPsi (th : Fin M → ℝ) (psis : Mat M M) (k : Fin M) : ℝ := ∑ m, th m * psis m k

/-- `Theta_Psi_sum_invs` (6722). -/
noncomputable def invs (S : Fin M → ℝ) (k : Fin M) : ℝ := 1 / S k

/-- `unifac_lnGammas_subgroups`. -/
noncomputable def lnGammas (Qs : Fin M → ℝ) (psis : Mat M M) (th S Z : Fin M → ℝ) (k : Fin M) : ℝ :=
  Qs k * (1 - ∑ m, th m * Z m * psis k m - log (S k))

/-- `unifac_dlnGammas_subgroups_dT`. -/
def dlnGammas_dT (Qs : Fin M → ℝ) (psis dpsis : Mat M M) (th Z F : Fin M → ℝ) (i : Fin M) : ℝ :=
  Qs i * (∑ j, (psis i j * F j * Z j - dpsis i j) * Z j * th j - F i * Z i)

/-- `unifac_d2lnGammas_subgroups_dT2`. -/
def d2lnGammas_dT2 (Qs : Fin M → ℝ) (psis dpsis d2psis : Mat M M) (th Z F G : Fin M → ℝ) (i : Fin M) : ℝ :=
  Qs i * (Z i * (F i * F i * Z i - G i)
    - ∑ j, (Z j * th j * (d2psis i j - (G j * psis i j + 2 * F j * dpsis i j) * Z j) + 2 * F j * F j * th j * Z j * Z j * Z j * psis i j))

/-- `unifac_d3lnGammas_subgroups_dT3`. -/
def d3lnGammas_dT3 (Qs : Fin M → ℝ) (psis dpsis d2psis d3psis : Mat M M) (th U F G H : Fin M → ℝ) (i : Fin M) : ℝ :=
  Qs i * (-H i * U i - 2 * F i ^ 3 * U i ^ 3 + 3 * F i * G i * U i ^ 2
    + ∑ j, (-(th j * U j * d3psis i j) + H j * (th j * U j) * psis i j * U j - 6 * F j * F j * th j * dpsis i j * U j * U j * U j
      + 3 * F j * th j * d2psis i j * U j * U j + 3 * G j * th j * dpsis i j * U j * U j + 6 * F j ^ 3 * th j * psis i j * U j ^ 4
      - 6 * F j * G j * th j * psis i j * U j ^ 3))

/-! ## Groups of pure components (4620-4737) -/

/-- `unifac_Xs_pure` with `cmp_v_count_inv` (5541). -/
noncomputable def XsPure (vs : Mat M N) (k : Fin M) (i : Fin N) : ℝ := vs k i * (1 / ∑ g, vs g i)

/-- `unifac_Thetas_pure`. -/
noncomputable def thetasPure (vs : Mat M N) (Qs : Fin M → ℝ) (i : Fin N) (k : Fin M) : ℝ :=
  Qs k * XsPure vs k i * (1 / ∑ j, Qs j * XsPure vs j i)

open Classical in
/-- `unifac_lnGammas_subgroups_pure`; the groups of a component are those with a count that is not zero (5548-5563). -/
noncomputable def lnGammasPure (vs : Mat M N) (Qs : Fin M → ℝ) (psis : Mat M M) (k : Fin M) (i : Fin N) : ℝ :=
  if vs k i ≠ 0 then
    Qs k * (1 - log (∑ m with vs m i ≠ 0, thetasPure vs Qs i m * psis m k)
      - ∑ m with vs m i ≠ 0, thetasPure vs Qs i m * psis k m / ∑ n, thetasPure vs Qs i n * psis n m)
  else 0

open Classical in
/-- `unifac_dlnGammas_subgroups_pure_dT` and the higher ones, from the values for the groups of the component. -/
noncomputable def ofPure (vs : Mat M N) (f : Fin N → Fin M → ℝ) (k : Fin M) (i : Fin N) : ℝ := if vs k i ≠ 0 then f i k else 0

/-! ## Components (4739-4998) -/

/-- `unifac_lngammas_r`, also for temperature derivatives. -/
def lngammas_r (vs : Mat M N) (pure : Mat M N) (mix : Fin M → ℝ) (i : Fin N) : ℝ := ∑ k, vs k i * (mix k - pure k i)

/-- The second result of `unifac_Vis`. -/
noncomputable def sumInv (rs xs : Fin N → ℝ) : ℝ := 1 / ∑ i, rs i * xs i

/-- `unifac_Vis`. -/
noncomputable def Vis (rs xs : Fin N → ℝ) (i : Fin N) : ℝ := rs i * sumInv rs xs

/-- `unifac_lngammas_c`. -/
noncomputable def lngammas_c (version : ℕ) (qs F V Vm : Fin N → ℝ) (i : Fin N) : ℝ :=
  if version = 4 then log (Vm i) + 1 - Vm i
  else 1 - Vm i + log (Vm i) - 5 * qs i * (1 - V i / F i + log (V i / F i))

/-- `unifac_GE` and `unifac_GE_skip_comb` (the combinatorial part is then zero). -/
def GE (R T : ℝ) (xs r c : Fin N → ℝ) : ℝ := (∑ i, xs i * (c i + r i)) * (R * T)

/-- `unifac_dGE_dT`. -/
noncomputable def dGE_dT (R T : ℝ) (xs dr : Fin N → ℝ) (GE : ℝ) : ℝ := R * T * (∑ i, xs i * dr i) + GE / T

/-- `unifac_d2GE_dT2`. -/
def d2GE_dT2 (R T : ℝ) (xs dr d2r : Fin N → ℝ) : ℝ := R * (T * (∑ i, xs i * d2r i) + (∑ i, xs i * dr i + ∑ i, xs i * dr i))

/-- `unifac_d3GE_dT3`. -/
def d3GE_dT3 (R T : ℝ) (xs d2r d3r : Fin N → ℝ) : ℝ := R * (T * (∑ i, xs i * d3r i) + 3 * ∑ i, xs i * d2r i)

/-! ## The class -/

/-- Parameters of a model (5480-5569). -/
structure Model (M N : ℕ) where
  vs : Mat M N
  Qs : Fin M → ℝ
  rs : Fin N → ℝ
  qs : Fin N → ℝ
  a : Mat M M
  b : Mat M M
  c : Mat M M
  version : ℕ

namespace Model

variable (m : Model M N)

/-- Methods `psis`, `dpsis_dT`, `d2psis_dT2`, `d3psis_dT3` (5767-6012). -/
noncomputable def psis (T : ℝ) : Mat M M := fun i j => psi m.version (m.a i j) (m.b i j) (m.c i j) T
@[inherit_doc psis] noncomputable def dpsis (T : ℝ) : Mat M M := fun i j => dpsi m.version (m.a i j) (m.b i j) (m.c i j) T (m.psis T i j)
@[inherit_doc psis] noncomputable def d2psis (T : ℝ) : Mat M M := fun i j => d2psi m.version (m.a i j) (m.b i j) (m.c i j) T (m.psis T i j)
@[inherit_doc psis] noncomputable def d3psis (T : ℝ) : Mat M M := fun i j => d3psi m.version (m.a i j) (m.b i j) (m.c i j) T (m.psis T i j)

/-- Methods `Thetas`, `Theta_Psi_sums`, `Fs`, `Gs`, `Hs` (6487-6849). -/
noncomputable def th (x : Fin N → ℝ) : Fin M → ℝ := thetas (Xs m.vs x) m.Qs

/-- `lnGammas_subgroups` and derivatives (6970-7455) for area fractions `t`. -/
noncomputable def lnG (T : ℝ) (t : Fin M → ℝ) : Fin M → ℝ :=
  lnGammas m.Qs (m.psis T) t (thetaPsi t (m.psis T)) (invs (thetaPsi t (m.psis T)))
@[inherit_doc lnG] noncomputable def dlnG (T : ℝ) (t : Fin M → ℝ) : Fin M → ℝ :=
  dlnGammas_dT m.Qs (m.psis T) (m.dpsis T) t (invs (thetaPsi t (m.psis T))) (thetaPsi t (m.dpsis T))
@[inherit_doc lnG] noncomputable def d2lnG (T : ℝ) (t : Fin M → ℝ) : Fin M → ℝ :=
  d2lnGammas_dT2 m.Qs (m.psis T) (m.dpsis T) (m.d2psis T) t (invs (thetaPsi t (m.psis T))) (thetaPsi t (m.dpsis T)) (thetaPsi t (m.d2psis T))
@[inherit_doc lnG] noncomputable def d3lnG (T : ℝ) (t : Fin M → ℝ) : Fin M → ℝ :=
  d3lnGammas_dT3 m.Qs (m.psis T) (m.dpsis T) (m.d2psis T) (m.d3psis T) t (invs (thetaPsi t (m.psis T))) (thetaPsi t (m.dpsis T))
    (thetaPsi t (m.d2psis T)) (thetaPsi t (m.d3psis T))

open Classical in
/-- `lngammas_r` (7762-7796). -/
noncomputable def r (T : ℝ) (x : Fin N → ℝ) (i : Fin N) : ℝ :=
  if N ≠ 1 then lngammas_r m.vs (lnGammasPure m.vs m.Qs (m.psis T)) (m.lnG T (m.th x)) i else 0

/-- `dlngammas_r_dT`, `d2lngammas_r_dT2`, `d3lngammas_r_dT3` (7798-7903). -/
noncomputable def dr (T : ℝ) (x : Fin N → ℝ) : Fin N → ℝ :=
  lngammas_r m.vs (ofPure m.vs fun i => m.dlnG T (thetasPure m.vs m.Qs i)) (m.dlnG T (m.th x))
@[inherit_doc dr] noncomputable def d2r (T : ℝ) (x : Fin N → ℝ) : Fin N → ℝ :=
  lngammas_r m.vs (ofPure m.vs fun i => m.d2lnG T (thetasPure m.vs m.Qs i)) (m.d2lnG T (m.th x))
@[inherit_doc dr] noncomputable def d3r (T : ℝ) (x : Fin N → ℝ) : Fin N → ℝ :=
  lngammas_r m.vs (ofPure m.vs fun i => m.d3lnG T (thetasPure m.vs m.Qs i)) (m.d3lnG T (m.th x))

/-- `rs_34` (5520-5532), or `rs` for the versions without. -/
noncomputable def rsm (i : Fin N) : ℝ :=
  if m.version = 1 then m.rs i ^ (3 / 4 : ℝ) else if m.version = 4 then m.rs i ^ (2 / 3 : ℝ) else m.rs i

/-- `lngammas_c` (8371-8419); zero for version 3, where it is left out (`skip_comb`). -/
noncomputable def comb (x : Fin N → ℝ) (i : Fin N) : ℝ :=
  if m.version = 3 then 0 else if N ≠ 1 then lngammas_c m.version m.qs (Vis m.qs x) (Vis m.rs x) (Vis m.rsm x) i else 0

/-- `GE` (8005-8033). -/
noncomputable def GE (R T : ℝ) (x : Fin N → ℝ) : ℝ := if N = 1 then 0 else Unifac.GE R T x (m.r T x) (m.comb x)

/-- `gammas` (8227-8269), `dgammas_dT` (8271-8301). -/
noncomputable def gammas (T : ℝ) (x : Fin N → ℝ) (i : Fin N) : ℝ := exp (m.r T x i + m.comb x i)
@[inherit_doc gammas] noncomputable def dgammas_dT (T : ℝ) (x : Fin N → ℝ) (i : Fin N) : ℝ := m.dr T x i * m.gammas T x i

/-- What is needed of parameters and composition: nothing negative, and every component has a group with an area. -/
structure Ok (x : Fin N → ℝ) : Prop where
  vs : ∀ k i, 0 ≤ m.vs k i
  Qs : ∀ k, 0 ≤ m.Qs k
  nonneg : ∀ i, 0 ≤ x i
  sum : ∑ i, x i = 1
  area : ∀ i, 0 < ∑ k, m.Qs k * m.vs k i

end Model

/-! ## Area fractions -/

theorem area_pos {m : Model M N} {x : Fin N → ℝ} (h : m.Ok x) : 0 < ∑ k, m.Qs k * VSXS m.vs x k := by
  have e : ∑ k, m.Qs k * VSXS m.vs x k = ∑ i, x i * ∑ k, m.Qs k * m.vs k i := by
    simp only [VSXS, mul_sum]
    rw [sum_comm]
    exact sum_congr rfl fun i _ => sum_congr rfl fun k _ => by ring
  rw [e]
  have hne : ∃ i, x i ≠ 0 := by
    by_contra hh
    push Not at hh
    have := h.sum
    simp [hh] at this
  obtain ⟨i, hi⟩ := hne
  exact sum_pos' (fun j _ => mul_nonneg (h.nonneg j) (h.area j).le) ⟨i, mem_univ i, mul_pos (lt_of_le_of_ne (h.nonneg i) hi.symm) (h.area i)⟩

theorem count_pos {m : Model M N} {x : Fin N → ℝ} (h : m.Ok x) : 0 < ∑ k, VSXS m.vs x k := by
  have hn : ∀ k, 0 ≤ VSXS m.vs x k := fun k => sum_nonneg fun j _ => mul_nonneg (h.vs k j) (h.nonneg j)
  rcases (sum_nonneg fun k _ => hn k : 0 ≤ ∑ k, VSXS m.vs x k).lt_or_eq with hh | hh
  · exact hh
  · have hz := (sum_eq_zero_iff_of_nonneg fun k _ => hn k).1 hh.symm
    have := area_pos h
    rw [sum_eq_zero fun k hk => by rw [hz k hk, mul_zero]] at this
    exact absurd this (lt_irrefl _)

/-- Area fractions without the detour over group fractions. -/
theorem th_eq {m : Model M N} {x : Fin N → ℝ} (hc : ∑ k, VSXS m.vs x k ≠ 0) (k : Fin M) :
    m.th x k = m.Qs k * VSXS m.vs x k / ∑ j, m.Qs j * VSXS m.vs x j := by
  unfold Model.th thetas thetaSumInv
  have e : ∑ i, Xs m.vs x i * m.Qs i = (∑ j, m.Qs j * VSXS m.vs x j) / ∑ k, VSXS m.vs x k := by
    rw [sum_div]
    refine sum_congr rfl fun i _ => ?_
    unfold Xs XsSumInv VSXS
    ring
  rw [e]
  have e2 : Xs m.vs x k = VSXS m.vs x k / ∑ k, VSXS m.vs x k := by
    unfold Xs XsSumInv VSXS; ring
  rw [e2]
  by_cases hD : ∑ j, m.Qs j * VSXS m.vs x j = 0
  · simp [hD]
  · field_simp

theorem thPure_eq {m : Model M N} {x : Fin N → ℝ} (h : m.Ok x) (i : Fin N) (k : Fin M) :
    thetasPure m.vs m.Qs i k = m.Qs k * m.vs k i / ∑ j, m.Qs j * m.vs j i := by
  have hD := (h.area i).ne'
  have hc : ∑ g, m.vs g i ≠ 0 := by
    intro hz
    have hz' := (sum_eq_zero_iff_of_nonneg fun k _ => h.vs k i).1 hz
    exact hD (sum_eq_zero fun k hk => by rw [hz' k hk, mul_zero])
  unfold thetasPure XsPure
  have e : ∑ j, m.Qs j * (m.vs j i * (1 / ∑ g, m.vs g i)) = (∑ j, m.Qs j * m.vs j i) / ∑ g, m.vs g i := by
    rw [sum_div]; exact sum_congr rfl fun j _ => by ring
  rw [e]
  field_simp

/-- **C97.** Area fractions of groups are not negative and sum to one, in the mixture and in each component. -/
theorem C97_fractions {m : Model M N} {x : Fin N → ℝ} (h : m.Ok x) :
    (∀ k, 0 ≤ m.th x k) ∧ ∑ k, m.th x k = 1 ∧ ∀ i, (∀ k, 0 ≤ thetasPure m.vs m.Qs i k) ∧ ∑ k, thetasPure m.vs m.Qs i k = 1 := by
  have hn : ∀ k, 0 ≤ VSXS m.vs x k := fun k => sum_nonneg fun j _ => mul_nonneg (h.vs k j) (h.nonneg j)
  have hc := (count_pos h).ne'
  refine ⟨fun k => ?_, ?_, fun i => ⟨fun k => ?_, ?_⟩⟩
  · rw [th_eq hc]; exact div_nonneg (mul_nonneg (h.Qs k) (hn k)) (area_pos h).le
  · simp only [th_eq hc]; rw [← sum_div, div_self (area_pos h).ne']
  · rw [thPure_eq h]; exact div_nonneg (mul_nonneg (h.Qs k) (h.vs k i)) (h.area i).le
  · simp only [thPure_eq h]; rw [← sum_div, div_self (h.area i).ne']

theorem thetaPsi_pos {m : Model M N} {t : Fin M → ℝ} (ht : ∀ k, 0 ≤ t k) (hs : ∑ k, t k = 1) (T : ℝ) (k : Fin M) :
    0 < thetaPsi t (m.psis T) k := by
  have hne : ∃ i, t i ≠ 0 := by
    by_contra hh
    push Not at hh
    simp [hh] at hs
  obtain ⟨i, hi⟩ := hne
  exact sum_pos' (fun j _ => mul_nonneg (ht j) (C97_psi_pos _ _ _ _ _).1.le)
    ⟨i, mem_univ i, mul_pos (lt_of_le_of_ne (ht i) hi.symm) (C97_psi_pos _ _ _ _ _).1⟩

/-! ## Derivatives of group activity coefficients -/

section Path

variable {Qs : Fin M → ℝ} {t : ℝ}

theorem deriv_thetaPsi {th th' : Fin M → ℝ} {psis : ℝ → Mat M M} {dpsis : Mat M M} (k : Fin M)
    (hp : ∀ i j, HasDerivAt (fun t => psis t i j) (dpsis i j) t) :
    HasDerivAt (fun t => thetaPsi th (psis t) k) (thetaPsi th dpsis k) t :=
  HasDerivAt.fun_sum fun m _ => (hp m k).const_mul (th m)

theorem deriv_invs {S : ℝ → Fin M → ℝ} {S' : Fin M → ℝ} (k : Fin M) (hS : HasDerivAt (fun t => S t k) (S' k) t) (h0 : S t k ≠ 0) :
    HasDerivAt (fun t => invs (S t) k) (-(S' k * invs (S t) k * invs (S t) k)) t := by
  simp only [invs, one_div]
  refine (hS.fun_inv h0).congr_deriv ?_
  field_simp

end Path

/-- **C97.** The temperature derivatives of the activity coefficients of groups, for any area fractions, are derivatives of each other. -/
theorem C97_groups_dT (m : Model M N) (t : Fin M → ℝ) (ht : ∀ k, 0 ≤ t k) (hs : ∑ k, t k = 1) (T : ℝ) (hT : 0 < T) (k : Fin M) :
    HasDerivAt (fun T => m.lnG T t k) (m.dlnG T t k) T ∧ HasDerivAt (fun T => m.dlnG T t k) (m.d2lnG T t k) T
      ∧ HasDerivAt (fun T => m.d2lnG T t k) (m.d3lnG T t k) T := by
  have hp := fun i j => C97_psi m.version (m.a i j) (m.b i j) (m.c i j) T hT
  have p1 : ∀ i j, HasDerivAt (fun T => m.psis T i j) (m.dpsis T i j) T := fun i j => (hp i j).1
  have p2 : ∀ i j, HasDerivAt (fun T => m.dpsis T i j) (m.d2psis T i j) T := fun i j => (hp i j).2.1
  have p3 : ∀ i j, HasDerivAt (fun T => m.d2psis T i j) (m.d3psis T i j) T := fun i j => (hp i j).2.2
  have s1 : ∀ j, HasDerivAt (fun T => thetaPsi t (m.psis T) j) (thetaPsi t (m.dpsis T) j) T := fun j => deriv_thetaPsi (th' := t) j p1
  have s2 : ∀ j, HasDerivAt (fun T => thetaPsi t (m.dpsis T) j) (thetaPsi t (m.d2psis T) j) T := fun j => deriv_thetaPsi (th' := t) j p2
  have s3 : ∀ j, HasDerivAt (fun T => thetaPsi t (m.d2psis T) j) (thetaPsi t (m.d3psis T) j) T := fun j => deriv_thetaPsi (th' := t) j p3
  have hpos := fun j => (thetaPsi_pos (m := m) ht hs T j).ne'
  have z1 : ∀ j, HasDerivAt (fun T => invs (thetaPsi t (m.psis T)) j)
      (-(thetaPsi t (m.dpsis T) j * invs (thetaPsi t (m.psis T)) j * invs (thetaPsi t (m.psis T)) j)) T :=
    fun j => deriv_invs j (s1 j) (hpos j)
  refine ⟨?_, ?_, ?_⟩
  · unfold Model.lnG lnGammas
    have h := ((((HasDerivAt.fun_sum fun j (_ : j ∈ univ) => ((z1 j).const_mul (t j)).fun_mul (p1 k j)).const_sub 1).fun_sub
      ((s1 k).log (hpos k))).const_mul (m.Qs k))
    refine h.congr_deriv ?_
    unfold Model.dlnG dlnGammas_dT
    rw [← sum_neg_distrib]
    congr 2
    · exact sum_congr rfl fun j _ => by ring
    · unfold invs; ring
  · unfold Model.dlnG dlnGammas_dT
    have h := ((HasDerivAt.fun_sum fun j (_ : j ∈ univ) =>
      (((((p1 k j).fun_mul (s2 j)).fun_mul (z1 j)).fun_sub (p2 k j)).fun_mul (z1 j)).mul_const (t j)).fun_sub ((s2 k).fun_mul (z1 k))).const_mul (m.Qs k)
    refine h.congr_deriv ?_
    unfold Model.d2lnG d2lnGammas_dT2
    have e : ∀ A B C D : ℝ, A = -D → -B = C → m.Qs k * (A - B) = m.Qs k * (C - D) := by
      intro A B C D h1 h2; rw [h1, ← h2]; ring
    refine e _ _ _ _ ?_ ?_
    · rw [← sum_neg_distrib]
      exact sum_congr rfl fun j _ => by ring
    · ring
  · unfold Model.d2lnG d2lnGammas_dT2
    have h := ((((z1 k).fun_mul ((((s2 k).fun_mul (s2 k)).fun_mul (z1 k)).fun_sub (s3 k))).fun_sub
      (HasDerivAt.fun_sum fun j (_ : j ∈ univ) =>
        (((z1 j).mul_const (t j)).fun_mul ((p3 k j).fun_sub ((((s3 j).fun_mul (p1 k j)).fun_add (((s2 j).const_mul 2).fun_mul (p2 k j))).fun_mul (z1 j)))).fun_add
        ((((((((s2 j).const_mul 2).fun_mul (s2 j)).mul_const (t j)).fun_mul (z1 j)).fun_mul (z1 j)).fun_mul (z1 j)).fun_mul (p1 k j)))).const_mul (m.Qs k))
    refine h.congr_deriv ?_
    unfold Model.d3lnG d3lnGammas_dT3
    have e : ∀ A B C D : ℝ, A = C → -B = D → m.Qs k * (A - B) = m.Qs k * (C + D) := by
      intro A B C D h1 h2; rw [h1, ← h2]; ring
    refine e _ _ _ _ ?_ ?_
    · ring
    · rw [← sum_neg_distrib]
      exact sum_congr rfl fun j _ => by ring

/-! ## Pure components -/

/-- **C97.** The activity coefficients of groups in a pure component are those of the general equation with the area fractions of the
component, so that leaving out absent groups in the sums has no effect. -/
theorem C97_pure_groups {m : Model M N} {x : Fin N → ℝ} (h : m.Ok x) (T : ℝ) (k : Fin M) (i : Fin N) (hk : m.vs k i ≠ 0) :
    lnGammasPure m.vs m.Qs (m.psis T) k i = m.lnG T (thetasPure m.vs m.Qs i) k := by
  classical
  have hz : ∀ j, m.vs j i = 0 → thetasPure m.vs m.Qs i j = 0 := fun j hj => by rw [thPure_eq h, hj]; simp
  unfold lnGammasPure
  rw [if_pos hk]
  unfold Model.lnG lnGammas thetaPsi invs
  have e1 : ∀ f : Fin M → ℝ, ∑ j with m.vs j i ≠ 0, thetasPure m.vs m.Qs i j * f j = ∑ j, thetasPure m.vs m.Qs i j * f j := by
    intro f
    rw [sum_filter]
    refine sum_congr rfl fun j _ => ?_
    by_cases hj : m.vs j i = 0
    · rw [if_neg (by simpa using hj), hz j hj, zero_mul]
    · rw [if_pos hj]
  rw [e1 fun j => m.psis T j k]
  have e2 : ∑ j with m.vs j i ≠ 0, thetasPure m.vs m.Qs i j * m.psis T k j / ∑ n, thetasPure m.vs m.Qs i n * m.psis T n j
      = ∑ j, thetasPure m.vs m.Qs i j * (1 / ∑ n, thetasPure m.vs m.Qs i n * m.psis T n j) * m.psis T k j := by
    rw [← sum_congr rfl fun j _ => (by ring : thetasPure m.vs m.Qs i j * (m.psis T k j * (1 / ∑ n, thetasPure m.vs m.Qs i n * m.psis T n j))
      = thetasPure m.vs m.Qs i j * (1 / ∑ n, thetasPure m.vs m.Qs i n * m.psis T n j) * m.psis T k j), ← e1]
    exact sum_congr rfl fun j _ => by ring
  rw [e2]
  ring

/-- **C97.** The temperature derivatives of the residual parts are derivatives of each other. -/
theorem C97_residual_dT {m : Model M N} {x : Fin N → ℝ} (h : m.Ok x) (hN : N ≠ 1) (T : ℝ) (hT : 0 < T) (i : Fin N) :
    HasDerivAt (fun T => m.r T x i) (m.dr T x i) T ∧ HasDerivAt (fun T => m.dr T x i) (m.d2r T x i) T
      ∧ HasDerivAt (fun T => m.d2r T x i) (m.d3r T x i) T := by
  classical
  obtain ⟨f1, f2, f3⟩ := C97_fractions h
  have hm := fun k => C97_groups_dT m (m.th x) f1 f2 T hT k
  have hp := fun k => C97_groups_dT m (thetasPure m.vs m.Qs i) (f3 i).1 (f3 i).2 T hT k
  have key : ∀ (g g' : ℝ → Fin M → ℝ) (q q' : ℝ → Mat M N), (∀ k, HasDerivAt (fun T => g T k) (g' T k) T) →
      (∀ k, m.vs k i ≠ 0 → HasDerivAt (fun T => q T k i) (q' T k i) T) →
      HasDerivAt (fun T => lngammas_r m.vs (q T) (g T) i) (lngammas_r m.vs (q' T) (g' T) i) T := by
    intro g g' q q' hg hq
    unfold lngammas_r
    refine HasDerivAt.fun_sum fun k _ => ?_
    by_cases hk : m.vs k i = 0
    · simp only [hk, zero_mul]; exact hasDerivAt_const _ _
    · exact ((hg k).fun_sub (hq k hk)).const_mul _
  refine ⟨?_, ?_, ?_⟩
  · simp only [Model.r, if_pos hN]
    refine key (fun T => m.lnG T (m.th x)) (fun T => m.dlnG T (m.th x)) _ (fun T => ofPure m.vs fun i => m.dlnG T (thetasPure m.vs m.Qs i)) (fun k => (hm k).1) fun k hk => ?_
    have e : (fun T => lnGammasPure m.vs m.Qs (m.psis T) k i) = fun T => m.lnG T (thetasPure m.vs m.Qs i) k :=
      funext fun T => C97_pure_groups h T k i hk
    rw [e]
    simp only [ofPure, if_pos hk]
    exact (hp k).1
  · refine key (fun T => m.dlnG T (m.th x)) (fun T => m.d2lnG T (m.th x)) _ (fun T => ofPure m.vs fun i => m.d2lnG T (thetasPure m.vs m.Qs i)) (fun k => (hm k).2.1) fun k hk => ?_
    simp only [ofPure, if_pos hk]
    exact (hp k).2.1
  · refine key (fun T => m.d2lnG T (m.th x)) (fun T => m.d3lnG T (m.th x)) _ (fun T => ofPure m.vs fun i => m.d3lnG T (thetasPure m.vs m.Qs i)) (fun k => (hm k).2.2) fun k hk => ?_
    simp only [ofPure, if_pos hk]
    exact (hp k).2.2

/-- **C97.** One component has no excess Gibbs energy; the excess energy of more is the mole fraction average of the
logarithms of the activity coefficients times `R T`. -/
theorem C97_GE_pure (m : Model M N) (R T : ℝ) (x : Fin N → ℝ) :
    (N = 1 → m.GE R T x = 0) ∧ (N ≠ 1 → m.GE R T x = R * T * ∑ i, x i * (m.comb x i + m.r T x i)) :=
  ⟨fun h => by rw [Model.GE, if_pos h], fun h => by rw [Model.GE, if_neg h, Unifac.GE, mul_comm]⟩

/-- **C97.** Temperature derivatives of the excess Gibbs energy and of the activity coefficients. -/
theorem C97_GE_dT {m : Model M N} {x : Fin N → ℝ} (h : m.Ok x) (hN : N ≠ 1) (R T : ℝ) (hT : 0 < T) :
    HasDerivAt (fun T => m.GE R T x) (dGE_dT R T x (m.dr T x) (m.GE R T x)) T
      ∧ HasDerivAt (fun T => dGE_dT R T x (m.dr T x) (m.GE R T x)) (d2GE_dT2 R T x (m.dr T x) (m.d2r T x)) T
      ∧ HasDerivAt (fun T => d2GE_dT2 R T x (m.dr T x) (m.d2r T x)) (d3GE_dT3 R T x (m.d2r T x) (m.d3r T x)) T
      ∧ ∀ i, HasDerivAt (fun T => m.gammas T x i) (m.dgammas_dT T x i) T := by
  have hr := fun i => C97_residual_dT h hN T hT i
  have hid := hasDerivAt_id' T
  have e : ∀ T, m.GE R T x = (∑ i, x i * (m.comb x i + m.r T x i)) * (R * T) := fun T => by
    rw [Model.GE, if_neg hN, Unifac.GE]
  have h1 : HasDerivAt (fun T => m.GE R T x) (dGE_dT R T x (m.dr T x) (m.GE R T x)) T := by
    rw [funext e]
    refine ((HasDerivAt.fun_sum fun i (_ : i ∈ univ) => (((hr i).1.const_add (m.comb x i)).const_mul (x i))).fun_mul (hid.const_mul R)).congr_deriv ?_
    unfold dGE_dT
    rw [e]
    field_simp
  refine ⟨h1, ?_, ?_, fun i => ?_⟩
  · unfold dGE_dT
    refine ((((hid.const_mul R)).fun_mul (HasDerivAt.fun_sum fun i (_ : i ∈ univ) => ((hr i).2.1.const_mul (x i)))).fun_add
      (h1.fun_div hid hT.ne')).congr_deriv ?_
    unfold d2GE_dT2 dGE_dT
    field_simp
    ring
  · unfold d2GE_dT2
    have d1 := HasDerivAt.fun_sum fun i (_ : i ∈ univ) => ((hr i).2.1.const_mul (x i))
    have d2 := HasDerivAt.fun_sum fun i (_ : i ∈ univ) => ((hr i).2.2.const_mul (x i))
    refine (((hid.fun_mul d2).fun_add (d1.fun_add d1)).const_mul R).congr_deriv ?_
    unfold d3GE_dT3
    ring
  · unfold Model.dgammas_dT Model.gammas
    refine (((hr i).1.add_const (m.comb x i)).exp).congr_deriv ?_
    ring

/-! ## Limits -/

/-- The composition of a pure component. -/
def pureX (i j : Fin N) : ℝ := if j = i then 1 else 0

theorem VSXS_pure (vs : Mat M N) (i : Fin N) (k : Fin M) : VSXS vs (pureX i) k = vs k i := by
  unfold VSXS pureX
  simp

/-- **C97.** The activity coefficient of a pure component is one, in all versions. -/
theorem C97_pure {m : Model M N} {i : Fin N} (h : m.Ok (pureX i)) (hr : 0 < m.rs i) (hq : 0 < m.qs i) (T : ℝ) : m.gammas T (pureX i) i = 1 := by
  have hth : m.th (pureX i) = thetasPure m.vs m.Qs i := by
    funext k
    rw [th_eq (count_pos h).ne', thPure_eq h]
    simp only [VSXS_pure]
  have h1 : m.r T (pureX i) i = 0 := by
    unfold Model.r
    split_ifs
    · unfold lngammas_r
      refine sum_eq_zero fun k _ => ?_
      by_cases hk : m.vs k i = 0
      · rw [hk, zero_mul]
      · rw [C97_pure_groups h T k i hk, hth, sub_self, mul_zero]
    · rfl
  have hV : ∀ rs : Fin N → ℝ, 0 < rs i → Vis rs (pureX i) i = 1 := by
    intro rs hrs
    unfold Vis sumInv pureX
    simp
    field_simp
  have hrm : 0 < m.rsm i := by
    unfold Model.rsm
    split_ifs
    · exact rpow_pos_of_pos hr _
    · exact rpow_pos_of_pos hr _
    · exact hr
  have h2 : m.comb (pureX i) i = 0 := by
    unfold Model.comb
    split_ifs
    · rfl
    · unfold lngammas_c
      rw [hV _ hr, hV _ hq, hV _ hrm]
      split_ifs <;> norm_num
    · rfl
  rw [Model.gammas, h1, h2]
  simp

/-- Hexane and butanone, with group areas as in the example of the class and some interaction. -/
noncomputable def demo : Model 3 2 where
  vs := ![![2, 1], ![4, 1], ![0, 1]]
  Qs := ![848 / 1000, 540 / 1000, 1488 / 1000]
  rs := ![45 / 10, 32 / 10]
  qs := ![3856 / 1000, 2876 / 1000]
  a := ![![0, 0, 476], ![0, 0, 476], ![267 / 10, 267 / 10, 0]]
  b := fun _ _ => 0
  c := fun _ _ => 0
  version := 0

theorem demo_ok {x : Fin 2 → ℝ} (hx : ∀ i, 0 ≤ x i) (hs : ∑ i, x i = 1) : demo.Ok x := by
  refine ⟨fun k i => ?_, fun k => ?_, hx, hs, fun i => ?_⟩
  · fin_cases k <;> fin_cases i <;> norm_num [demo]
  · fin_cases k <;> norm_num [demo]
  · fin_cases i <;> simp [demo, Fin.sum_univ_succ] <;> norm_num

example : demo.Ok ![1 / 2, 1 / 2] := demo_ok (by intro i; fin_cases i <;> norm_num) (by simp [Fin.sum_univ_two]; norm_num)

example : demo.gammas 333 (pureX 1) 1 = 1 :=
  C97_pure (demo_ok (by intro i; fin_cases i <;> norm_num [pureX]) (by simp [Fin.sum_univ_two, pureX])) (by norm_num [demo]) (by norm_num [demo]) 333

/-! ## The function `UNIFAC_gammas` (3739-4004) -/

/-- What a table of interactions holds for a pair of main groups (3355-3429): one number or three. -/
inductive Entry
  | one (a : ℝ)
  | three (a b c : ℝ)

/-- `UNIFAC_psi` (3661-3736): the bare `except` also covers an entry of the other form. -/
noncomputable def psiFn (modified : Bool) (T : ℝ) : Option Entry → ℝ
  | none => 1
  | some (.one a) => if modified then 1 else exp (-a / T)
  | some (.three a b c) => if modified then exp (-a / T - b - c * T) else 1

/-- The parameters which `from_subgroups` (5441-5461) reads from an entry. -/
def abc : Option Entry → ℝ × ℝ × ℝ
  | none => (0, 0, 0)
  | some (.one a) => (a, 0, 0)
  | some (.three a b c) => (a, b, c)

open Classical in
/-- `UNIFAC_gammas`; `p` is `UNIFAC_psi` of two groups, the groups in the dictionary of a component are those with a count. -/
noncomputable def gammasFn (modified : Bool) (m : Model M N) (p : Mat M M) (x : Fin N → ℝ) (i : Fin N) : ℝ :=
  let groupSum := ∑ i, ∑ k with m.vs k i ≠ 0, m.vs k i * x i
  let countXs := fun k => (∑ i with m.vs k i ≠ 0, m.vs k i * x i) / groupSum
  let vis := fun i => m.rs i / ∑ j, m.rs j * x j
  let fis := fun i => m.qs i / ∑ j, m.qs j * x j
  let vis2 := fun i => m.rs i ^ (3 / 4 : ℝ) / ∑ j, m.rs j ^ (3 / 4 : ℝ) * x j
  let lnc := if modified then 1 - vis2 i + log (vis2 i) - 5 * m.qs i * (1 - vis i / fis i + log (vis i / fis i))
    else 1 - vis i + log (vis i) - 5 * m.qs i * (1 - vis i / fis i + log (vis i / fis i))
  let area := fun k => m.Qs k * countXs k / ∑ j, m.Qs j * countXs j
  let psis := fun k j => p j k
  let group := fun k => m.Qs k * (1 - log (∑ j, area j * psis k j) + ∑ j, -(area j * psis j k / ∑ n, area n * psis j n))
  let chemSum := ∑ k with m.vs k i ≠ 0, m.vs k i
  let chemXs := fun k => m.vs k i / chemSum
  let chemArea := fun k => m.Qs k * chemXs k / ∑ j with m.vs j i ≠ 0, m.Qs j * chemXs j
  let chem := fun k => m.Qs k * (1 - log (∑ j with m.vs j i ≠ 0, chemArea j * psis k j)
    + ∑ j with m.vs j i ≠ 0, -(chemArea j * psis j k / ∑ n with m.vs n i ≠ 0, chemArea n * psis j n))
  exp (lnc + ∑ k with m.vs k i ≠ 0, m.vs k i * (group k - chem k))

/-- **C97.** The class and the function agree: the original model is version 0, the modified one version 1. -/
theorem C97_function {m : Model M N} {x : Fin N → ℝ} (h : m.Ok x) (hN : N ≠ 1) (modified : Bool) (hv : m.version = if modified then 1 else 0)
    (T : ℝ) (i : Fin N) : gammasFn modified m (m.psis T) x i = m.gammas T x i := by
  classical
  have f1 : ∀ (i : Fin N) (f : Fin M → ℝ), ∑ k with m.vs k i ≠ 0, m.vs k i * f k = ∑ k, m.vs k i * f k := by
    intro i f
    refine sum_filter_of_ne fun k _ hk hz => hk (by rw [hz, zero_mul])
  have f2 : ∀ k, ∑ i with m.vs k i ≠ 0, m.vs k i * x i = VSXS m.vs x k :=
    fun k => sum_filter_of_ne fun i _ hk hz => hk (by rw [hz, zero_mul])
  have f3 : ∀ i, ∑ k with m.vs k i ≠ 0, m.vs k i = ∑ k, m.vs k i := fun i => sum_filter_of_ne fun k _ hk hz => hk hz
  have f4 : ∑ i, ∑ k with m.vs k i ≠ 0, m.vs k i * x i = ∑ k, VSXS m.vs x k := by
    rw [sum_congr rfl fun i _ => f1 i fun _ => x i, sum_comm]
    rfl
  -- area fractions
  have hA : ∀ k, m.Qs k * (VSXS m.vs x k / ∑ k, VSXS m.vs x k) / ∑ j, m.Qs j * (VSXS m.vs x j / ∑ k, VSXS m.vs x k) = m.th x k := by
    intro k
    rw [th_eq (count_pos h).ne']
    have e : ∑ j, m.Qs j * (VSXS m.vs x j / ∑ k, VSXS m.vs x k) = (∑ j, m.Qs j * VSXS m.vs x j) / ∑ k, VSXS m.vs x k := by
      rw [sum_div]; exact sum_congr rfl fun j _ => by ring
    rw [e]
    have := (count_pos h).ne'
    have := (area_pos h).ne'
    field_simp
  have hc : ∑ g, m.vs g i ≠ 0 := by
    intro hz
    have hz' := (sum_eq_zero_iff_of_nonneg fun k _ => h.vs k i).1 hz
    exact (h.area i).ne' (sum_eq_zero fun k hk => by rw [hz' k hk, mul_zero])
  have hP : ∀ k, m.Qs k * (m.vs k i / ∑ g, m.vs g i) / ∑ j with m.vs j i ≠ 0, m.Qs j * (m.vs j i / ∑ g, m.vs g i) = thetasPure m.vs m.Qs i k := by
    intro k
    rw [thPure_eq h]
    have e : ∑ j with m.vs j i ≠ 0, m.Qs j * (m.vs j i / ∑ g, m.vs g i) = (∑ j, m.Qs j * m.vs j i) / ∑ g, m.vs g i := by
      rw [sum_div]
      have e0 : ∑ j with m.vs j i ≠ 0, m.Qs j * (m.vs j i / ∑ g, m.vs g i) = ∑ j, m.Qs j * (m.vs j i / ∑ g, m.vs g i) :=
        sum_filter_of_ne fun k _ hk hz => hk (by rw [hz]; simp)
      rw [e0]
      exact sum_congr rfl fun j _ => by ring
    rw [e]
    have := (h.area i).ne'
    field_simp
  have hz : ∀ j, m.vs j i = 0 → thetasPure m.vs m.Qs i j = 0 := fun j hj => by rw [thPure_eq h, hj]; simp
  have f5 : ∀ f : Fin M → ℝ, ∑ j with m.vs j i ≠ 0, thetasPure m.vs m.Qs i j * f j = ∑ j, thetasPure m.vs m.Qs i j * f j :=
    fun f => sum_filter_of_ne fun k _ hk h0 => hk (by rw [hz k h0, zero_mul])
  unfold gammasFn
  dsimp only
  simp only [f4, f2, f3, hA, hP, f5]
  rw [f1 i]
  unfold Model.gammas
  congr 1
  rw [add_comm]
  have h3 : m.version ≠ 3 := by rw [hv]; split_ifs <;> decide
  have h4 : m.version ≠ 4 := by rw [hv]; split_ifs <;> decide
  congr 1
  · rw [Model.r, if_pos hN, lngammas_r]
    refine sum_congr rfl fun k _ => ?_
    by_cases hk : m.vs k i = 0
    · rw [hk, zero_mul, zero_mul]
    · rw [C97_pure_groups h T k i hk]
      congr 1
      have key : ∀ t : Fin M → ℝ, m.Qs k * (1 - log (∑ j, t j * m.psis T j k) + ∑ j, -(t j * m.psis T k j / ∑ n, t n * m.psis T n j)) = m.lnG T t k := by
        intro t
        unfold Model.lnG lnGammas thetaPsi invs
        rw [sum_neg_distrib, sum_congr rfl fun j _ => (by ring : t j * m.psis T k j / ∑ n, t n * m.psis T n j = t j * (1 / ∑ n, t n * m.psis T n j) * m.psis T k j)]
        ring
      rw [← key, ← key]
      congr 3
      exact sum_filter_of_ne fun j _ hk h0 => hk (by rw [hz j h0]; simp)
  · rw [Model.comb, if_neg h3, if_pos hN, lngammas_c, if_neg h4]
    have e : ∀ rs : Fin N → ℝ, Vis rs x i = rs i / ∑ j, rs j * x j := fun rs => by unfold Vis sumInv; ring
    simp only [e]
    cases modified
    · have h1 : m.rsm = m.rs := by
        funext j
        have h0 : m.version = 0 := by simpa using hv
        simp [Model.rsm, h0]
      rw [h1]
      simp
    · have h1 : m.rsm = fun j => m.rs j ^ (3 / 4 : ℝ) := by
        funext j
        have h0 : m.version = 1 := by simpa using hv
        simp [Model.rsm, h0]
      rw [h1]
      simp

/-- **C97 (partial).** The interaction terms agree when the table has entries of the form that goes with the model. -/
theorem C97_entry_partial (T : ℝ) (e : Option Entry) (modified : Bool)
    (he : ∀ v, e = some v → (modified = true ↔ ∃ a b c, v = .three a b c)) :
    psiFn modified T e = psi (if modified then 1 else 0) (abc e).1 (abc e).2.1 (abc e).2.2 T := by
  have hv : ¬ lyngby (if modified then 1 else 0) := by cases modified <;> decide
  rw [psi, if_neg hv]
  rcases e with _ | ⟨a⟩ | ⟨a, b, c⟩
  · simp [psiFn, abc]
  · have hm : modified = false := by
      have := he _ rfl
      cases modified
      · rfl
      · simp at this
    subst hm
    simp only [psiFn, abc]
    norm_num
    ring
  · have hm : modified = true := (he _ rfl).2 ⟨a, b, c, rfl⟩
    subst hm
    simp only [psiFn, abc]
    rw [if_pos trivial]
    congr 1
    ring

example : psiFn false 300 (some (.one 600)) = psi 0 600 0 0 300 := C97_entry_partial 300 (some (.one 600)) false (by simp)

/-- **C97 (negation).** With the default table of the original model `modified=True` silently gives one for every pair, where the class uses the
parameters of the table. -/
theorem C97_entry_fails : ∃ (T : ℝ) (e : Entry), 0 < T ∧ psiFn true T (some e) = 1
    ∧ psi 1 (abc (some e)).1 (abc (some e)).2.1 (abc (some e)).2.2 T ≠ 1 := by
  refine ⟨300, .one 600, by norm_num, rfl, ?_⟩
  rw [psi, if_neg (by decide)]
  simp only [abc]
  norm_num

/-! ## Missing parameters (5744-5764) -/

/-- `missing_interaction_parameters` as a set of pairs. -/
def missing (a : Mat M M) : Set (Fin M × Fin M) := {p | p.1 ≠ p.2 ∧ a p.1 p.2 = 0}

/-- **C97 (partial).** Every pair of different groups for which the table has nothing is listed, and what is listed has no first parameter.
Groups of the same main group, and pairs whose first parameter is zero, are listed as well. -/
theorem C97_missing_partial (main : Fin M → ℕ) (data : ℕ → ℕ → Option Entry) (i j : Fin M) (hij : i ≠ j) :
    let listed := (i, j) ∈ missing fun i j => (abc (data (main i) (main j))).1
    (data (main i) (main j) = none → listed)
      ∧ (listed → data (main i) (main j) = none ∨ ∃ e, data (main i) (main j) = some e ∧ (abc (some e)).1 = 0) := by
  refine ⟨fun h => ⟨hij, by simp [h, abc]⟩, fun h => ?_⟩
  rcases hd : data (main i) (main j) with _ | e
  · exact .inl rfl
  · refine .inr ⟨e, rfl, ?_⟩
    have := h.2
    simpa [hd] using this

/-- **C97 (negation).** A pair is listed as missing although the table has parameters for it and they have an effect (VTPR, main groups 11
and 5). -/
theorem C97_missing_fails : ∃ (main : Fin 2 → ℕ) (data : ℕ → ℕ → Option Entry) (e : Entry) (T : ℝ),
    data (main 0) (main 1) = some e ∧ ((0 : Fin 2), (1 : Fin 2)) ∈ missing (fun i j => (abc (data (main i) (main j))).1)
      ∧ 0 < T ∧ psi 3 (abc (some e)).1 (abc (some e)).2.1 (abc (some e)).2.2 T ≠ 1 := by
  refine ⟨![11, 5], fun i j => if i = 11 ∧ j = 5 then some (.three 0 0 (-36391 / 100000000)) else none, .three 0 0 (-36391 / 100000000), 300,
    by simp, ⟨by decide, by simp [abc]⟩, by norm_num, ?_⟩
  rw [psi, if_neg (by decide)]
  simp only [abc]
  norm_num

/-! ## Identity of models (5469, `activity.py` 336-361) -/

/-- What `model_hash` covers (`_model_attributes`); group counts and areas are not among it. -/
def key (m : Model M N) : (Fin N → ℝ) × (Fin N → ℝ) × Mat M M × Mat M M × Mat M M × ℕ := (m.rs, m.qs, m.a, m.b, m.c, m.version)

/-- **C97 (partial).** Models with the same hash data, groups and areas are the same. -/
theorem C97_hash_partial (m m' : Model M N) (h : key m = key m') (hv : m.vs = m'.vs) (hQ : m.Qs = m'.Qs) : m = m' := by
  cases m
  cases m'
  simp only [key, Prod.mk.injEq] at h
  simp_all

/-- Two components of two groups of equal area. -/
noncomputable def twin (vs : Mat 2 2) : Model 2 2 where
  vs := vs
  Qs := fun _ => 1
  rs := fun _ => 0
  qs := fun _ => 2
  a := ![![0, 1], ![1, 0]]
  b := fun _ _ => 0
  c := fun _ _ => 0
  version := 3

/-- **C97 (negation).** Two models of version 3, as `from_subgroups` builds them, with the same hash but different activity coefficients: the
components of the first have one group of each kind, those of the second two of one kind. -/
theorem C97_hash_fails : ∃ (m m' : Model 2 2) (x : Fin 2 → ℝ), key m = key m' ∧ m.Ok x ∧ m'.Ok x
    ∧ (∀ i, m.qs i = ∑ k, m.Qs k * m.vs k i) ∧ (∀ i, m'.qs i = ∑ k, m'.Qs k * m'.vs k i) ∧ m.gammas 1 x 0 ≠ m'.gammas 1 x 0 := by
  have hx : ∀ vs : Mat 2 2, (∀ k i, 0 ≤ vs k i) → (∀ i, 0 < ∑ k, vs k i) → (twin vs).Ok ![1 / 2, 1 / 2] := by
    intro vs h1 h2
    refine ⟨h1, fun k => by norm_num [twin], fun i => by fin_cases i <;> norm_num, by simp [Fin.sum_univ_two]; norm_num, fun i => ?_⟩
    simpa [twin] using h2 i
  have hok1 := hx (fun _ _ => 1) (by intro k i; norm_num) (by intro i; norm_num)
  have hok2 := hx (fun k i => if k = i then 2 else 0) (by intro k i; split_ifs <;> norm_num) (by intro i; fin_cases i <;> simp [Fin.sum_univ_two])
  refine ⟨twin fun _ _ => 1, twin fun k i => if k = i then 2 else 0, ![1 / 2, 1 / 2], rfl, hok1, hok2, ?_, ?_, ?_⟩
  · intro i; simp [twin]
  · intro i; fin_cases i <;> simp [twin, Fin.sum_univ_two]
  · have ht1 : (twin fun _ _ => 1).th ![1 / 2, 1 / 2] = fun _ => 1 / 2 := by
      funext k
      rw [th_eq (count_pos hok1).ne']
      simp only [VSXS, Fin.sum_univ_two, twin]
      norm_num
    have ht2 : (twin fun k i => if k = i then 2 else 0).th ![1 / 2, 1 / 2] = fun _ => 1 / 2 := by
      funext k
      rw [th_eq (count_pos hok2).ne']
      fin_cases k <;> norm_num [VSXS, Fin.sum_univ_two, twin]
    have hp1 : thetasPure (twin fun _ _ => 1).vs (twin fun _ _ => 1).Qs 0 = fun _ => 1 / 2 := by
      funext k
      rw [thPure_eq hok1]
      simp only [twin, Fin.sum_univ_two]
      norm_num
    have hp2 : thetasPure (twin fun k i => if k = i then 2 else 0).vs (twin fun k i => if k = i then 2 else 0).Qs 0 = fun k => if k = 0 then 1 else 0 := by
      funext k
      rw [thPure_eq hok2]
      fin_cases k <;> simp [twin, Fin.sum_univ_two]
    have h1 : (twin fun _ _ => 1).gammas 1 ![1 / 2, 1 / 2] 0 = 1 := by
      rw [Model.gammas, Model.r, if_pos (by decide), lngammas_r, Model.comb, if_pos (by rfl),
        sum_eq_zero fun k _ => by rw [C97_pure_groups hok1 1 k 0 (by simp [twin]), hp1, ht1, sub_self, mul_zero]]
      simp
    have hpsi : ∀ vs, (twin vs).psis 1 0 0 = 1 ∧ (twin vs).psis 1 0 1 = exp (-1) ∧ (twin vs).psis 1 1 0 = exp (-1) ∧ (twin vs).psis 1 1 1 = 1 := by
      intro vs
      simp only [Model.psis, psi]
      have hl : ¬ lyngby (twin vs).version := by
        change ¬ lyngby 3
        decide
      simp only [if_neg hl]
      simp [twin]
    have h2 : (twin fun k i => if k = i then 2 else 0).gammas 1 ![1 / 2, 1 / 2] 0 ≠ 1 := by
      rw [Model.gammas, Model.r, if_pos (by decide), lngammas_r, Model.comb, if_pos (by rfl), Fin.sum_univ_two, C97_pure_groups hok2 1 0 0 (by simp [twin]), hp2, ht2]
      have hv : (twin fun k i => if k = i then 2 else 0).vs 0 0 = 2 ∧ (twin fun k i => if k = i then 2 else 0).vs 1 0 = 0 := by simp [twin]
      rw [hv.1, hv.2]
      obtain ⟨p1, p2, p3, p4⟩ := hpsi (fun k i => if k = i then 2 else 0)
      have e1 : (twin fun k i => if k = i then 2 else 0).lnG 1 (fun _ => 1 / 2) 0 = -log ((1 + exp (-1)) / 2) := by
        simp only [Model.lnG, lnGammas, thetaPsi, invs, Fin.sum_univ_two, p1, p2, p3, p4]
        have : (1 : ℝ) + exp (-1) ≠ 0 := by positivity
        have e : (1 / 2 * 1 + 1 / 2 * exp (-1) : ℝ) = (1 + exp (-1)) / 2 := by ring
        have e' : (1 / 2 * exp (-1) + 1 / 2 * 1 : ℝ) = (1 + exp (-1)) / 2 := by ring
        rw [e, e']
        have : (twin fun k i => if k = i then (2 : ℝ) else 0).Qs 0 = 1 := rfl
        rw [this]
        field_simp
        ring
      have e2 : (twin fun k i => if k = i then 2 else 0).lnG 1 (fun k => if k = 0 then 1 else 0) 0 = 0 := by
        simp [Model.lnG, lnGammas, thetaPsi, invs, Fin.sum_univ_two, p1, p2]
      rw [e1, e2]
      intro h
      rw [exp_eq_one_iff] at h
      have hl : log ((1 + exp (-1)) / 2) < 0 := by
        have : exp (-1 : ℝ) < 1 := by rw [exp_lt_one_iff]; norm_num
        refine log_neg (by positivity) (by linarith)
      linarith
    rw [h1]
    exact h2.symm

end Verif.Unifac
