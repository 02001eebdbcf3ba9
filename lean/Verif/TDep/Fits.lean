import Verif.TDep.VolumeObj
import Mathlib.Analysis.SpecialFunctions.ExpDeriv
import Mathlib.Analysis.SpecialFunctions.Log.Deriv

/-!
# Polynomial and Chebyshev fits of a temperature dependent property (C123)

`thermo/utils/t_dependent_property.py`: the setters of the twelve fits (2622-2911), the correlations of the same
twelve forms (`correlation_models` 968-1050, `_optimize_added_correlation` 3482-3587), the value (`_base_calculate`
2964-3020), the derivatives (`calculate_derivative` 3888-4083), the transforms of the value (3119-3138), the integral
coefficients (2895-2896, 3493-3496, 3545-3548, 4166-4189), the coefficients of the extrapolations (4466-4523) and the
conversion of a fit to a correlation (`_get_special_fit_params` 2953-2962, `as_method_kwargs` 1749-1774).

A fit is `g (P (offset + scale * u(T)))` with `g` the identity or `exp`, `u` the identity or `ln (1 - T/Tc)`, and `P` a
polynomial in powers or in Chebyshev polynomials; the functions of `fluids.numerics` that evaluate it (`horner_stable`,
`exp_cheb_ln_tau`, ...) and its derivatives are their documented formula.  `trunc_log` is the logarithm, with its constant for
arguments that are not positive.  Not modelled: `T ≥ Tc` in the forms with `ln (1 - T/Tc)` (the functions return 0), `chebint`
(its coefficients are stored and never read), rounding, the finite difference used for the orders without a formula.
-/

namespace Verif.Fits

open Real Verif.VolumeObj

/-! ## Basis functions -/

/-- Chebyshev polynomials of the first kind. -/
def chT : ℕ → ℝ → ℝ
  | 0, _ => 1
  | 1, x => x
  | n + 2, x => 2 * x * chT (n + 1) x - chT n x

/-- `Σ c_k T_{n+k}`. -/
def chFrom : ℕ → List ℝ → ℝ → ℝ
  | _, [], _ => 0
  | n, a :: l, x => a * chT n x + chFrom (n + 1) l x

/-- `chebval` without offset and scale: the constant comes first. -/
def chebval (c : List ℝ) (x : ℝ) : ℝ := chFrom 0 c x

/-- The sums `a_m + a_{m+2} + a_{m+4} + ...`, from the last coefficient down as the loop of `chebder` does. -/
def everyOther : List ℝ → List ℝ
  | [] => []
  | a :: l => (a + ((everyOther l)[1]?).getD 0) :: everyOther l

/-- `k c_k`, starting with `k = n`. -/
def timesIndex : ℕ → List ℝ → List ℝ
  | _, [] => []
  | n, a :: l => (n : ℝ) * a :: timesIndex (n + 1) l

/-- All but the first coefficient doubled. -/
def doubleTail : List ℝ → List ℝ
  | [] => []
  | a :: l => a :: l.map (2 * ·)

/-- `chebder(c, m=1, scl=s)`. -/
def chebder (s : ℝ) (c : List ℝ) : List ℝ := (doubleTail (everyOther (timesIndex 1 c.tail))).map (s * ·)

/-- The three bases. -/
inductive Basis
  | poly
  | stable
  | cheb
  deriving DecidableEq, Repr

/-- Value of the polynomial: the highest power first for powers, the constant first for Chebyshev coefficients. -/
def Basis.val : Basis → List ℝ → ℝ → ℝ
  | .cheb => chebval
  | _ => horner

/-- Coefficients of the derivative, times `s`. -/
def Basis.der : Basis → ℝ → List ℝ → List ℝ
  | .cheb, s, c => chebder s c
  | _, s, c => ((polyder c.reverse).reverse).map (s * ·)

/-! ## Setters -/

/-- One of the twelve forms: `ex` for the names starting with `EXP_`, `tau` for those ending with `_LN_TAU`. -/
structure Kind where
  basis : Basis
  ex : Bool
  tau : Bool
  deriving DecidableEq, Repr

/-- What the setters store, and what a correlation holds. -/
structure Fit where
  kind : Kind
  Tmin : ℝ
  Tmax : ℝ
  Tc : ℝ
  coeffs : List ℝ
  offset : ℝ
  scale : ℝ

/-- `polynomial_offset_scale`. -/
noncomputable def offsetScale (a b : ℝ) : ℝ × ℝ := ((-b - a) / (b - a), 2 / (b - a))

/-- `trunc_log`. -/
noncomputable def truncLog (x : ℝ) : ℝ := if 0 < x then log x else -744.4400719213812

/-- The setters of the fits (2622-2911): the plain polynomial has neither offset nor scale; the others map `[Tmin, Tmax]`, or the
logarithms at `Tmin` and `Tmax` in that order (2692-2694, 2717-2720, 2795-2797, 2817-2819). -/
noncomputable def setFit (k : Kind) (Tmin Tmax Tc : ℝ) (c : List ℝ) : Fit :=
  let os := match k.basis with
    | .poly => (0, 1)
    | _ => if k.tau then offsetScale (truncLog (1 - Tmin / Tc)) (truncLog (1 - Tmax / Tc)) else offsetScale Tmin Tmax
  ⟨k, Tmin, Tmax, Tc, c, os.1, os.2⟩

/-- The correlations of the same forms (`_optimize_added_correlation` 3543-3581): the logarithms are sorted first
(3564-3567, 3570-3572, 3579-3581). -/
noncomputable def setCorr (k : Kind) (Tmin Tmax Tc : ℝ) (c : List ℝ) : Fit :=
  let os := match k.basis with
    | .poly => (0, 1)
    | _ => if k.tau then
        offsetScale (min (truncLog (1 - Tmin / Tc)) (truncLog (1 - Tmax / Tc))) (max (truncLog (1 - Tmin / Tc)) (truncLog (1 - Tmax / Tc)))
      else offsetScale Tmin Tmax
  ⟨k, Tmin, Tmax, Tc, c, os.1, os.2⟩

/-! ## Value and derivatives -/

/-- `T` or `ln (1 - T/Tc)`. -/
noncomputable def Fit.u (f : Fit) (T : ℝ) : ℝ := if f.kind.tau then log (1 - T / f.Tc) else T

/-- The argument of the polynomial. -/
noncomputable def Fit.arg (f : Fit) (T : ℝ) : ℝ := f.offset + f.scale * f.u T

/-- Coefficients of the `n`th derivative in `u`: `d1_coeffs`, `d2_coeffs`, ... (2642-2645, 3582-3584). -/
noncomputable def Fit.d (f : Fit) : ℕ → List ℝ
  | 0 => f.coeffs
  | n + 1 => f.kind.basis.der f.scale (f.d n)

/-- The polynomial with its derivatives in `u`. -/
noncomputable def Fit.q (f : Fit) (n : ℕ) (T : ℝ) : ℝ := f.kind.basis.val (f.d n) (f.arg T)

/-- Exponent or value with its first three derivatives in `T`, as the `*_ln_tau_and_der` functions form them. -/
noncomputable def Fit.w (f : Fit) (n : ℕ) (T : ℝ) : ℝ :=
  if f.kind.tau then
    let r := 1 / (T - f.Tc)
    match n with
    | 0 => f.q 0 T
    | 1 => f.q 1 T * r
    | 2 => (f.q 2 T - f.q 1 T) * r ^ 2
    | 3 => (f.q 3 T - 3 * f.q 2 T + 2 * f.q 1 T) * r ^ 3
    | _ => 0
  else f.q n T

/-- `_base_calculate` (order 0) and the formulas of `calculate_derivative` (orders 1 to 4): the `exp_*_and_der` functions. -/
noncomputable def Fit.value (f : Fit) (n : ℕ) (T : ℝ) : ℝ :=
  if f.kind.ex then
    match n with
    | 0 => exp (f.w 0 T)
    | 1 => exp (f.w 0 T) * f.w 1 T
    | 2 => exp (f.w 0 T) * (f.w 1 T ^ 2 + f.w 2 T)
    | 3 => exp (f.w 0 T) * (f.w 1 T ^ 3 + 3 * f.w 1 T * f.w 2 T + f.w 3 T)
    | _ => 0
  else f.w n T

/-- Highest order with a formula for a fit (3992-4076). -/
def maxFit (k : Kind) : ℕ := match k.basis, k.ex, k.tau with
  | .poly, false, false => 3
  | .poly, true, false => 3
  | .poly, false, true => 3
  | .poly, true, true => 2
  | .stable, false, false => 4
  | .stable, true, false => 3
  | .stable, false, true => 3
  | .stable, true, true => 2
  | .cheb, false, false => 4
  | .cheb, true, false => 3
  | .cheb, false, true => 3
  | .cheb, true, true => 2

/-- What `calculate_derivative` does for an order of at least one. -/
inductive Outcome
  | formula (n : ℕ)
  | difference
  | typeError
  deriving DecidableEq, Repr

/-- A fit: a formula, or the finite difference (4077-4083). -/
def fitDerivative (k : Kind) (n : ℕ) : Outcome := if n ≤ maxFit k then .formula n else .difference

/-- Parameter names of the external functions behind the derivatives of the polynomial correlations. -/
def parameters (k : Kind) : List String := match k.ex, k.tau with
  | false, false => ["coeffs", "x"]
  | true, false => ["x", "coeffs"]
  | _, true => ["T", "Tc", "coeffs"]

/-- The keywords of the calls in `correlation_models` (971-973, 980-982, 989-991, 998-999) and how many arguments are positional. -/
def keywords (k : Kind) : ℕ × List String := match k.ex, k.tau with
  | false, false => (0, ["T", "coeffs"])
  | true, false => (1, ["coeffs"])
  | _, true => (0, ["T", "Tc", "coeffs"])

/-- Python accepts a call if every keyword names a parameter that is not filled by position and no parameter is left. -/
def binds (params : List String) (pos : ℕ) (kw : List String) : Bool :=
  kw.all (· ∈ params.drop pos) && (params.drop pos).all (· ∈ kw)

/-- A correlation: the stable and Chebyshev forms have formulas of their own (3917-3972), the Chebyshev one up to order 3, the polynomial ones
those of `correlation_models` (3975-3981). -/
def corrDerivative (k : Kind) (n : ℕ) : Outcome := match k.basis with
  | .stable => if n ≤ maxFit k then .formula n else .difference
  | .cheb => if n ≤ min 3 (maxFit k) then .formula n else .difference
  | .poly => if n ≤ maxFit k then (if binds (parameters k) (keywords k).1 (keywords k).2 then .formula n else .typeError) else .difference

/-! ## Derivatives of the bases -/

/-- Chebyshev polynomials of the second kind. -/
def chU : ℕ → ℝ → ℝ
  | 0, _ => 1
  | 1, x => 2 * x
  | n + 2, x => 2 * x * chU (n + 1) x - chU n x

theorem chU_sub (n : ℕ) (x : ℝ) : chU (n + 2) x - chU n x = 2 * chT (n + 2) x := by
  induction n using Nat.twoStepInduction with
  | zero => simp [chU, chT]; ring
  | one => simp [chU, chT]; ring
  | more n h0 h1 =>
    have e1 : chU (n + 2 + 2) x = 2 * x * chU (n + 1 + 2) x - chU (n + 2) x := rfl
    have e2 : chU (n + 2) x = 2 * x * chU (n + 1) x - chU n x := rfl
    have e3 : chT (n + 2 + 2) x = 2 * x * chT (n + 1 + 2) x - chT (n + 2) x := rfl
    rw [e1, e3]
    linear_combination 2 * x * h1 - h0 - e2

theorem chT_deriv (n : ℕ) (x : ℝ) : HasDerivAt (chT (n + 1)) ((n + 1 : ℕ) * chU n x) x := by
  induction n using Nat.twoStepInduction with
  | zero =>
    refine (hasDerivAt_id x).congr_deriv ?_
    simp [chU]
  | one =>
    have h := (((hasDerivAt_id x).const_mul 2).fun_mul (hasDerivAt_id x)).sub_const 1
    refine h.congr_deriv ?_
    simp [chU]
    ring
  | more n h0 h1 =>
    have h := (((hasDerivAt_id x).const_mul 2).fun_mul h1).fun_sub h0
    refine h.congr_deriv ?_
    have e1 : chU (n + 2) x = 2 * x * chU (n + 1) x - chU n x := rfl
    have e2 := chU_sub n x
    rw [show chT (n + 1 + 1) x = chT (n + 2) x from rfl]
    simp only [id]
    push_cast
    linear_combination (-1) * e2 + (-(n : ℝ) - 2) * e1

/-- `Σ a_m U_{n+m}`. -/
def uFrom : ℕ → List ℝ → ℝ → ℝ
  | _, [], _ => 0
  | n, a :: l, x => a * chU n x + uFrom (n + 1) l x

theorem chFrom_deriv (n : ℕ) (c : List ℝ) (x : ℝ) : HasDerivAt (chFrom (n + 1) c) (uFrom n (timesIndex (n + 1) c) x) x := by
  induction c generalizing n with
  | nil => exact (hasDerivAt_const x (0 : ℝ)).congr_deriv rfl
  | cons a l ih =>
    refine (((chT_deriv n x).const_mul a).fun_add (ih (n + 1))).congr_deriv ?_
    simp only [timesIndex, uFrom]
    ring

theorem chFrom_map (s : ℝ) (n : ℕ) (c : List ℝ) (x : ℝ) : chFrom n (c.map (s * ·)) x = s * chFrom n c x := by
  induction c generalizing n with
  | nil => simp [chFrom]
  | cons a l ih => simp only [List.map_cons, chFrom, ih]; ring

theorem everyOther_getD (l : List ℝ) (a b : ℝ) : ((everyOther (a :: b :: l))[1]?).getD 0 = b + ((everyOther l)[1]?).getD 0 := by
  simp [everyOther]

/-- The sums turn a series in `U` into one in `2 T`, up to the terms with an index below the first. -/
theorem uFrom_eq (n : ℕ) (l : List ℝ) (x : ℝ) : uFrom (n + 2) l x =
    chFrom (n + 2) ((everyOther l).map (2 * ·)) x + ((everyOther l)[0]?).getD 0 * chU n x + ((everyOther l)[1]?).getD 0 * chU (n + 1) x := by
  induction l generalizing n with
  | nil => simp [uFrom, everyOther, chFrom]
  | cons a l ih =>
    have h := ih (n + 1)
    have e := chU_sub n x
    rw [chFrom_map] at h ⊢
    have e1 : (everyOther (a :: l))[0]?.getD 0 = a + ((everyOther l)[1]?).getD 0 := by simp [everyOther]
    have e2 : (everyOther (a :: l))[1]?.getD 0 = ((everyOther l)[0]?).getD 0 := by simp [everyOther]
    rw [e1, e2]
    simp only [uFrom, everyOther, chFrom]
    rw [show n + 2 + 1 = n + 1 + 2 from rfl, h]
    rw [show n + 1 + 1 = n + 2 from rfl]
    linear_combination (a + ((everyOther l)[1]?).getD 0) * e

/-- `chebder` gives the coefficients of the derivative, times the scale. -/
theorem chebder_deriv (s : ℝ) (c : List ℝ) (x : ℝ) : HasDerivAt (fun y => s * chebval c y) (chebval (chebder s c) x) x := by
  have main : HasDerivAt (chebval c) (chFrom 0 (doubleTail (everyOther (timesIndex 1 c.tail))) x) x := by
    cases c with
    | nil => exact (hasDerivAt_const x (0 : ℝ)).congr_deriv (by simp [timesIndex, everyOther, doubleTail, chFrom])
    | cons a l =>
      have h := (chFrom_deriv 0 l x).const_add (a * 1)
      refine h.congr_deriv ?_
      simp only [List.tail_cons, zero_add]
      generalize timesIndex 1 l = m
      match m with
      | [] => simp [uFrom, everyOther, doubleTail, chFrom]
      | [b] => simp [uFrom, everyOther, doubleTail, chFrom, chU, chT]
      | b :: d :: m =>
        have h := uFrom_eq 0 m x
        simp only [uFrom, everyOther, doubleTail, chFrom, List.map_cons, zero_add] at h ⊢
        rw [h]
        simp [chU, chT]
        ring
  unfold chebder chebval
  rw [chFrom_map]
  exact main.const_mul s

theorem horner_map (s : ℝ) (c : List ℝ) (x : ℝ) : horner (c.map (s * ·)) x = s * horner c x := by
  have h : ∀ (c : List ℝ) (t : ℝ), (c.map (s * ·)).foldl (fun t a => t * x + a) (s * t) = s * c.foldl (fun t a => t * x + a) t := by
    intro c
    induction c with
    | nil => intro t; rfl
    | cons a l ih =>
      intro t
      simp only [List.map_cons, List.foldl_cons]
      rw [← ih]
      congr 1
      ring
  have := h c 0
  rw [mul_zero] at this
  exact this

theorem horner_deriv (c : List ℝ) (x : ℝ) : HasDerivAt (horner c) (horner (polyder c.reverse).reverse x) x := by
  have e : horner c = evalLow c.reverse := by
    funext y
    rw [← horner_reverse, List.reverse_reverse]
  rw [e, horner_reverse]
  exact evalLow_deriv _ _

/-- The coefficients of the derivative, for each basis. -/
theorem basis_deriv (b : Basis) (s : ℝ) (c : List ℝ) (x : ℝ) : HasDerivAt (fun y => s * b.val c y) (b.val (b.der s c) x) x := by
  cases b with
  | cheb => exact chebder_deriv s c x
  | poly => exact ((horner_deriv c x).const_mul s).congr_deriv (horner_map s _ x).symm
  | stable => exact ((horner_deriv c x).const_mul s).congr_deriv (horner_map s _ x).symm

theorem basis_deriv' (b : Basis) (s : ℝ) (c : List ℝ) (x : ℝ) : ∃ v, HasDerivAt (b.val c) v x ∧ s * v = b.val (b.der s c) x := by
  cases b with
  | cheb =>
    have h := chebder_deriv 1 c x
    refine ⟨chebval (chebder 1 c) x, ?_, ?_⟩
    · have e : (fun y => 1 * chebval c y) = Basis.val .cheb c := by funext y; exact one_mul _
      rw [e] at h
      exact h
    show s * chebval (chebder 1 c) x = chebval (chebder s c) x
    unfold chebder chebval
    rw [chFrom_map, chFrom_map]
    ring
  | poly => exact ⟨_, horner_deriv c x, (horner_map s _ x).symm⟩
  | stable => exact ⟨_, horner_deriv c x, (horner_map s _ x).symm⟩

/-! ## C123: derivatives -/

/-- The range in which a fit is a smooth function of temperature. -/
def Fit.Ok (f : Fit) (T : ℝ) : Prop := f.kind.tau = true → 0 < f.Tc ∧ T < f.Tc

theorem q_deriv (f : Fit) (n : ℕ) (T : ℝ) (h : f.Ok T) : HasDerivAt (f.q n) (if f.kind.tau then f.q (n + 1) T * (1 / (T - f.Tc)) else f.q (n + 1) T) T := by
  obtain ⟨v, hv, e⟩ := basis_deriv' f.kind.basis f.scale (f.d n) (f.arg T)
  have hq : f.q (n + 1) T = f.scale * v := e.symm
  unfold Fit.Ok at h
  by_cases ht : f.kind.tau = true
  · obtain ⟨h0, h1⟩ := h ht
    have hu : HasDerivAt f.arg (f.scale * (1 / (T - f.Tc))) T := by
      have hp : (1 : ℝ) - T / f.Tc ≠ 0 := by
        have : T / f.Tc < 1 := (div_lt_one h0).2 h1
        intro hh
        linarith
      have hl := ((((hasDerivAt_id T).div_const f.Tc).const_sub 1).log hp)
      have := (hl.const_mul f.scale).const_add f.offset
      have e2 : f.arg = fun T => f.offset + f.scale * log (1 - id T / f.Tc) := by
        funext y
        simp [Fit.arg, Fit.u, ht]
      rw [e2]
      refine this.congr_deriv ?_
      have h2 : T - f.Tc ≠ 0 := by intro hh; linarith
      have h3 : f.Tc - T ≠ 0 := by intro hh; linarith
      have h4 : f.Tc ≠ 0 := h0.ne'
      have e3 : (1 : ℝ) - id T / f.Tc = (f.Tc - T) / f.Tc := by simp only [id]; field_simp
      rw [e3]
      have e4 : (1 : ℝ) / (T - f.Tc) = -(1 / (f.Tc - T)) := by
        rw [show T - f.Tc = -(f.Tc - T) by ring]
        field_simp
      rw [e4]
      field_simp
    rw [if_pos ht, hq]
    exact (hv.comp T hu).congr_deriv (by ring)
  · have e2 : f.arg = fun T => f.offset + f.scale * T := by
      funext y
      simp [Fit.arg, Fit.u, ht]
    have hu : HasDerivAt f.arg f.scale T := by
      rw [e2]
      exact (((hasDerivAt_id T).const_mul f.scale).const_add f.offset).congr_deriv (by ring)
    rw [if_neg ht, hq]
    exact (hv.comp T hu).congr_deriv (by ring)

theorem r_deriv (a T : ℝ) (h : T ≠ a) : HasDerivAt (fun T => 1 / (T - a)) (-(1 / (T - a)) ^ 2) T := by
  have h2 : T - a ≠ 0 := sub_ne_zero.2 h
  have := (hasDerivAt_const T (1 : ℝ)).fun_div ((hasDerivAt_id T).sub_const a) h2
  refine this.congr_deriv ?_
  simp only [id]
  field_simp
  ring

theorem w_deriv (f : Fit) (n : ℕ) (T : ℝ) (h : f.Ok T) (hn : f.kind.tau = true → n ≤ 2) : HasDerivAt (f.w n) (f.w (n + 1) T) T := by
  by_cases ht : f.kind.tau = true
  · have hTc : T ≠ f.Tc := (h ht).2.ne
    have q0 := q_deriv f 0 T h
    have q1 := q_deriv f 1 T h
    have q2 := q_deriv f 2 T h
    rw [if_pos ht] at q0 q1 q2
    have hr := r_deriv f.Tc T hTc
    have e : ∀ m, f.w m = fun T => f.w m T := fun _ => rfl
    have hn' := hn ht
    interval_cases n
    · rw [e 0]
      simp only [Fit.w, ht, if_true]
      exact q0
    · rw [e 1]
      simp only [Fit.w, ht, if_true]
      refine (q1.fun_mul hr).congr_deriv ?_
      ring
    · rw [e 2]
      simp only [Fit.w, ht, if_true]
      refine ((q2.fun_sub q1).fun_mul (hr.fun_pow 2)).congr_deriv ?_
      push_cast
      ring
  · have q := q_deriv f n T h
    rw [if_neg ht] at q
    have e : f.w n = f.q n := by
      funext y
      simp [Fit.w, ht]
    rw [e]
    refine q.congr_deriv ?_
    simp [Fit.w, ht]

/-- Every order of derivative that has a formula is the derivative of the order before it, for each of the twelve fits. -/
theorem C123_derivatives (f : Fit) (n : ℕ) (T : ℝ) (h : f.Ok T) (hn : n + 1 ≤ maxFit f.kind) : HasDerivAt (f.value n) (f.value (n + 1) T) T := by
  have hn3 : f.kind.ex = true ∨ f.kind.tau = true → n ≤ 2 := by
    obtain ⟨k, a1, a2, a3, a4, a5, a6⟩ := f
    obtain ⟨b, x, t⟩ := k
    cases b <;> cases x <;> cases t <;> simp_all [maxFit] <;> omega
  by_cases hx : f.kind.ex = true
  · have h2 := hn3 (Or.inl hx)
    have w0 := w_deriv f 0 T h (fun _ => by omega)
    have w1 := w_deriv f 1 T h (fun _ => by omega)
    have w2 := w_deriv f 2 T h (fun _ => by omega)
    have e : ∀ m, f.value m = fun T => f.value m T := fun _ => rfl
    interval_cases n
    · rw [e 0]
      simp only [Fit.value, hx, if_true]
      exact w0.exp
    · rw [e 1]
      simp only [Fit.value, hx, if_true]
      refine (w0.exp.fun_mul w1).congr_deriv ?_
      ring
    · rw [e 2]
      simp only [Fit.value, hx, if_true]
      refine (w0.exp.fun_mul ((w1.fun_pow 2).fun_add w2)).congr_deriv ?_
      push_cast
      ring
  · have w := w_deriv f n T h (fun ht => hn3 (Or.inr ht))
    have e : f.value n = f.w n := by
      funext y
      simp [Fit.value, hx]
    rw [e]
    refine w.congr_deriv ?_
    simp [Fit.value, hx]

example : (setFit ⟨.cheb, true, true⟩ 250 400 500 [1, 2, 3]).Ok 300 ∧ 1 + 1 ≤ maxFit (setFit ⟨.cheb, true, true⟩ 250 400 500 [1, 2, 3]).kind := by
  refine ⟨fun _ => ?_, by decide⟩
  constructor <;> norm_num [setFit]

/-- The value itself: the polynomial, its exponential, at the scaled temperature or logarithm; `x ↦ 1 + 2 x + 3 (2 x² - 1)` for Chebyshev
coefficients 1, 2, 3 and `x² + 2 x + 3` for the coefficients 1, 2, 3 of powers. -/
theorem C123_value (f : Fit) (T : ℝ) (k : Kind) (a b d : ℝ) (c : List ℝ) :
    (f.kind.ex = false → f.value 0 T = f.kind.basis.val f.coeffs (f.offset + f.scale * f.u T)) ∧
    (f.kind.ex = true → f.value 0 T = exp (f.kind.basis.val f.coeffs (f.offset + f.scale * f.u T))) ∧
    (f.kind.tau = false → f.u T = T) ∧ (f.kind.tau = true → f.u T = log (1 - T / f.Tc)) ∧
    (∀ x, Basis.val .cheb [a, b, d] x = a + b * x + d * (2 * x ^ 2 - 1)) ∧ (∀ x, Basis.val .poly [a, b, d] x = a * x ^ 2 + b * x + d) ∧
    (∀ x, Basis.val .stable [a, b, d] x = a * x ^ 2 + b * x + d) ∧
    (setFit k a b d c).kind = k ∧ (setFit k a b d c).coeffs = c ∧ (setFit k a b d c).Tmin = a ∧ (setFit k a b d c).Tmax = b ∧ (setFit k a b d c).Tc = d ∧
    (setCorr k a b d c).kind = k ∧ (setCorr k a b d c).coeffs = c ∧ (setCorr k a b d c).Tmin = a ∧ (setCorr k a b d c).Tmax = b ∧ (setCorr k a b d c).Tc = d := by
  refine ⟨fun h => ?_, fun h => ?_, fun h => ?_, fun h => ?_, fun x => ?_, fun x => ?_, fun x => ?_, rfl, rfl, rfl, rfl, rfl, rfl, rfl, rfl, rfl, rfl⟩
  · cases ht : f.kind.tau <;> simp [Fit.value, Fit.w, h, ht, Fit.q, Fit.d, Fit.arg]
  · cases ht : f.kind.tau <;> simp [Fit.value, Fit.w, h, ht, Fit.q, Fit.d, Fit.arg]
  · simp [Fit.u, h]
  · simp [Fit.u, h]
  · simp [Basis.val, chebval, chFrom, chT]; ring
  · simp [Basis.val, horner]; ring
  · simp [Basis.val, horner]; ring

/-! ## C123: the interval -/

theorem logs (Tmin Tmax Tc : ℝ) (h1 : Tmin < Tmax) (h2 : Tmax < Tc) (h0 : 0 < Tc) :
    truncLog (1 - Tmin / Tc) = log (1 - Tmin / Tc) ∧ truncLog (1 - Tmax / Tc) = log (1 - Tmax / Tc) ∧ log (1 - Tmax / Tc) < log (1 - Tmin / Tc) := by
  have a : Tmax / Tc < 1 := (div_lt_one h0).2 h2
  have b : Tmin / Tc < Tmax / Tc := by gcongr
  refine ⟨if_pos (by linarith), if_pos (by linarith), log_lt_log (by linarith) (by linarith)⟩

theorem offsetScale_ends (a b : ℝ) (h : a ≠ b) : (offsetScale a b).1 + (offsetScale a b).2 * a = -1 ∧ (offsetScale a b).1 + (offsetScale a b).2 * b = 1 := by
  have : b - a ≠ 0 := sub_ne_zero.2 h.symm
  unfold offsetScale
  constructor <;> field_simp <;> ring

theorem offsetScale_swap (a b x : ℝ) (h : a ≠ b) : (offsetScale b a).1 + (offsetScale b a).2 * x = -((offsetScale a b).1 + (offsetScale a b).2 * x) := by
  have h1 : b - a ≠ 0 := sub_ne_zero.2 h.symm
  have h2 : a - b ≠ 0 := sub_ne_zero.2 h
  unfold offsetScale
  have : a - b = -(b - a) := by ring
  simp only [this]
  field_simp
  ring

/-- The stable and Chebyshev fits map the lower limit to -1 and the upper one to 1. -/
theorem C123_interval (k : Kind) (Tmin Tmax Tc : ℝ) (c : List ℝ) (hk : k.basis ≠ .poly) (h1 : Tmin < Tmax) (h2 : k.tau = true → Tmax < Tc ∧ 0 < Tc) :
    (setFit k Tmin Tmax Tc c).arg Tmin = -1 ∧ (setFit k Tmin Tmax Tc c).arg Tmax = 1 := by
  obtain ⟨b, x, t⟩ := k
  cases t
  · have e := offsetScale_ends Tmin Tmax h1.ne
    cases b <;> simp_all [setFit, Fit.arg, Fit.u]
  · obtain ⟨h3, h4⟩ := h2 rfl
    obtain ⟨l1, l2, l3⟩ := logs Tmin Tmax Tc h1 h3 h4
    have e := offsetScale_ends _ _ l3.ne'
    cases b <;> simp_all [setFit, Fit.arg, Fit.u]

example : (⟨.stable, false, true⟩ : Kind).basis ≠ .poly ∧ (178.18 : ℝ) < 591 ∧ (591 : ℝ) < 591.75 ∧ (0 : ℝ) < 591.75 := by
  refine ⟨by decide, ?_, ?_, ?_⟩ <;> norm_num

/-- A correlation with the same limits and coefficients as a fit is the same function, with the same derivatives, unless it is a stable or Chebyshev form in the logarithm. -/
theorem C123_correlation_partial (k : Kind) (Tmin Tmax Tc : ℝ) (c : List ℝ) (h : k.basis = .poly ∨ k.tau = false) : setCorr k Tmin Tmax Tc c = setFit k Tmin Tmax Tc c := by
  obtain ⟨b, x, t⟩ := k
  cases b <;> cases t <;> simp_all [setCorr, setFit]

example : (⟨.cheb, true, false⟩ : Kind).basis = .poly ∨ (⟨.cheb, true, false⟩ : Kind).tau = false := Or.inr rfl

/-- In those forms the correlation uses the mirrored argument: the fit runs from -1 at the lower limit to 1 at the upper one, the correlation from 1 to -1. -/
theorem C123_mirrored (k : Kind) (Tmin Tmax Tc : ℝ) (c : List ℝ) (hk : k.basis ≠ .poly) (ht : k.tau = true) (h1 : Tmin < Tmax) (h2 : Tmax < Tc) (h0 : 0 < Tc) (T : ℝ) :
    (setCorr k Tmin Tmax Tc c).arg T = -(setFit k Tmin Tmax Tc c).arg T := by
  obtain ⟨b, x, t⟩ := k
  obtain ⟨l1, l2, l3⟩ := logs Tmin Tmax Tc h1 h2 h0
  have e := offsetScale_swap _ _ (log (1 - T / Tc)) l3.ne'
  cases b <;> simp_all [setCorr, setFit, Fit.arg, Fit.u, min_eq_right l3.le, max_eq_left l3.le]

example : (⟨.cheb, true, true⟩ : Kind).basis ≠ .poly ∧ (⟨.cheb, true, true⟩ : Kind).tau = true ∧ (280 : ℝ) < 600 ∧ (600 : ℝ) < 647 ∧ (0 : ℝ) < 647 := by
  refine ⟨by decide, rfl, ?_, ?_, ?_⟩ <;> norm_num

/-- The conversion of a fit to a correlation by `as_method_kwargs` keeps limits, critical temperature and coefficients (1749-1774, 2953-2962). -/
noncomputable def asCorrelation (f : Fit) : Fit := setCorr f.kind f.Tmin f.Tmax f.Tc f.coeffs

/-- The converted fit is another function: with the coefficients 1, 0 of the stable polynomial in the logarithm between 250 and 400 K for a critical temperature of 500 K, 1 instead of -1 at
250 K; every such fit with an even polynomial, or not in the logarithm, is kept. -/
theorem C123_conversion_fails :
    (setFit ⟨.stable, false, true⟩ 250 400 500 [1, 0]).value 0 250 = -1 ∧ (asCorrelation (setFit ⟨.stable, false, true⟩ 250 400 500 [1, 0])).value 0 250 = 1 ∧
    (setFit ⟨.cheb, false, true⟩ 250 400 500 [0, 1]).value 0 250 = -1 ∧ (asCorrelation (setFit ⟨.cheb, false, true⟩ 250 400 500 [0, 1])).value 0 250 = 1 := by
  have i1 := (C123_interval ⟨.stable, false, true⟩ 250 400 500 [1, 0] (by decide) (by norm_num) (fun _ => by norm_num)).1
  have i2 := (C123_interval ⟨.cheb, false, true⟩ 250 400 500 [0, 1] (by decide) (by norm_num) (fun _ => by norm_num)).1
  have m1 := C123_mirrored ⟨.stable, false, true⟩ 250 400 500 [1, 0] (by decide) rfl (by norm_num) (by norm_num) (by norm_num) 250
  have m2 := C123_mirrored ⟨.cheb, false, true⟩ 250 400 500 [0, 1] (by decide) rfl (by norm_num) (by norm_num) (by norm_num) 250
  have v : ∀ f : Fit, f.kind.ex = false → f.value 0 250 = f.kind.basis.val f.coeffs (f.arg 250) := by
    intro f h
    cases ht : f.kind.tau <;> simp [Fit.value, Fit.w, h, ht, Fit.q, Fit.d]
  rw [i1] at m1
  rw [i2] at m2
  refine ⟨?_, ?_, ?_, ?_⟩
  · rw [v _ rfl, i1]; simp [setFit, Basis.val, horner]
  · rw [v _ rfl]
    show Basis.val .stable [1, 0] ((setCorr ⟨.stable, false, true⟩ 250 400 500 [1, 0]).arg 250) = 1
    rw [m1]; simp [Basis.val, horner]
  · rw [v _ rfl, i2]; simp [setFit, Basis.val, chebval, chFrom, chT]
  · rw [v _ rfl]
    show Basis.val .cheb [0, 1] ((setCorr ⟨.cheb, false, true⟩ 250 400 500 [0, 1]).arg 250) = 1
    rw [m2]; simp [Basis.val, chebval, chFrom, chT]

/-- The conversion keeps the value, and all derivatives, of every other fit. -/
theorem C123_conversion_partial (k : Kind) (Tmin Tmax Tc : ℝ) (c : List ℝ) (h : k.basis = .poly ∨ k.tau = false) : asCorrelation (setFit k Tmin Tmax Tc c) = setFit k Tmin Tmax Tc c :=
  C123_correlation_partial k Tmin Tmax Tc c h

example : (⟨.poly, true, true⟩ : Kind).basis = .poly ∨ (⟨.poly, true, true⟩ : Kind).tau = false := Or.inl rfl

/-! ## C123: orders -/

/-- A correlation has the formulas of the fit of the same form for the orders one to three, except for the fourth derivative of the Chebyshev series and for all derivatives of the plain polynomial. -/
theorem C123_orders_partial (k : Kind) (n : ℕ) (h : k ≠ ⟨.poly, false, false⟩) (h4 : k = ⟨.cheb, false, false⟩ → n ≠ 4) : corrDerivative k n = fitDerivative k n := by
  rcases Nat.lt_or_ge n 5 with hl | hl
  · obtain ⟨b, x, t⟩ := k
    interval_cases n <;> cases b <;> cases x <;> cases t <;> first | exact absurd rfl h | exact absurd rfl (h4 rfl) | decide
  · have hm : ∀ k, maxFit k ≤ 4 := by
      rintro ⟨b, x, t⟩
      cases b <;> cases x <;> cases t <;> decide
    have h1 : ¬ n ≤ maxFit k := by have := hm k; omega
    have h2 : ¬ n ≤ min 3 (maxFit k) := by omega
    unfold corrDerivative fitDerivative
    cases k.basis <;> simp only [if_neg h1, if_neg h2]

example : (⟨.poly, true, false⟩ : Kind) ≠ ⟨.poly, false, false⟩ := by decide

/-- The derivatives of order one to three of a polynomial correlation raise a `TypeError`: its entry calls `horner_and_der` with a keyword `T` that is not a parameter of it; the polynomial fit has them all. The
fourth derivative of a Chebyshev correlation is a finite difference while the Chebyshev fit has a formula for it. -/
theorem C123_polynomial_fails : (∀ n, 1 ≤ n → n ≤ 3 → corrDerivative ⟨.poly, false, false⟩ n = .typeError ∧ fitDerivative ⟨.poly, false, false⟩ n = .formula n) ∧
    corrDerivative ⟨.cheb, false, false⟩ 4 = .difference ∧ fitDerivative ⟨.cheb, false, false⟩ 4 = .formula 4 := by
  refine ⟨fun n h1 h3 => ?_, by decide, by decide⟩
  interval_cases n <;> decide

/-- The extrapolations and the orders of derivative that their coefficients take (4466-4523). The transformed derivative of `log(linear)` is a finite difference. -/
inductive Extra
  | linear
  | logLinear
  | arrhenius
  | constant
  | nolimit
  | antoineAB
  | dippr101
  | watson
  | lnTau2
  | lnTau3
  | dippr106AB
  | dippr106ABC
  deriving DecidableEq, Repr

/-- Orders taken by `calculate_derivative`. -/
def Extra.orders : Extra → List ℕ
  | .linear | .arrhenius | .antoineAB | .lnTau2 | .dippr106AB => [1]
  | .dippr101 | .lnTau3 | .dippr106ABC => [1, 2]
  | .logLinear | .constant | .nolimit | .watson => []

/-- The coefficients of an extrapolation can be computed: otherwise `T_dependent_property` is `None` outside the limits (3107-3112). -/
def extrapolates (k : Kind) (corr : Bool) (e : Extra) : Bool :=
  e.orders.all fun n => decide ((if corr then corrDerivative k n else fitDerivative k n) ≠ .typeError)

/-- Every fit can be extrapolated by every extrapolation, and every correlation of these forms other than the plain polynomial. -/
theorem C123_extrapolates (k : Kind) (e : Extra) : extrapolates k false e = true ∧ (k ≠ ⟨.poly, false, false⟩ → extrapolates k true e = true) := by
  obtain ⟨b, x, t⟩ := k
  cases e <;> cases b <;> cases x <;> cases t <;> decide

example : (⟨.stable, false, false⟩ : Kind) ≠ ⟨.poly, false, false⟩ := by decide

/-- A polynomial correlation cannot be extrapolated with the default linear extrapolation, while the same polynomial given as a fit can. -/
theorem C123_extrapolates_fails : extrapolates ⟨.poly, false, false⟩ true .linear = false ∧ extrapolates ⟨.poly, false, false⟩ false .linear = true ∧
    ∀ e, extrapolates ⟨.poly, false, false⟩ true e = true ↔ e = .logLinear ∨ e = .constant ∨ e = .nolimit ∨ e = .watson := by
  refine ⟨by decide, by decide, fun e => ?_⟩
  cases e <;> decide

/-! ## C123: transforms of the exponential polynomial -/

/-- `calculate_transform` of an `EXP_POLY_FIT` (3119-3132): logarithm, its first and its second derivative, from the polynomial alone. -/
noncomputable def transformFit (f : Fit) (order : ℕ) (T : ℝ) : ℝ := f.q order T

/-- The other methods (3123, 3127, 3131-3133): logarithm of the value, and ratio of the derivative to the value. -/
noncomputable def transformOther (f : Fit) : ℕ → ℝ → ℝ
  | 0, T => log (f.value 0 T)
  | 1, T => f.value 1 T / f.value 0 T
  | _, T => (f.value 2 T * f.value 0 T - f.value 1 T ^ 2) / f.value 0 T ^ 2

/-- The special case of the exponential polynomial agrees with what other methods do, and its orders are derivatives of each other. -/
theorem C123_transforms (Tmin Tmax Tc T : ℝ) (c : List ℝ) :
    let f := setFit ⟨.poly, true, false⟩ Tmin Tmax Tc c
    (∀ n ≤ 2, transformFit f n T = transformOther f n T) ∧ HasDerivAt (fun T => log (f.value 0 T)) (transformFit f 1 T) T ∧ HasDerivAt (transformFit f 1) (transformFit f 2 T) T := by
  intro f
  have hx : f.kind.ex = true := rfl
  have ht : f.kind.tau = false := rfl
  have hok : f.Ok T := fun h => by rw [ht] at h; exact absurd h (by decide)
  have q0 := q_deriv f 0 T hok
  have q1 := q_deriv f 1 T hok
  rw [if_neg (by simp [ht])] at q0 q1
  have w : ∀ n T, f.w n T = f.q n T := by intro n T; simp [Fit.w, ht]
  have e0 : ∀ T, log (f.value 0 T) = f.q 0 T := by intro T; simp [Fit.value, hx, w]
  refine ⟨fun n hn => ?_, ?_, q1⟩
  · have hp := (exp_pos (f.q 0 T)).ne'
    interval_cases n
    · exact (e0 T).symm
    · simp only [transformFit, transformOther, Fit.value, hx, if_true, w]
      field_simp
    · simp only [transformFit, transformOther, Fit.value, hx, if_true, w]
      field_simp
      ring
  · rw [show (fun T => log (f.value 0 T)) = f.q 0 from funext e0]
    exact q0

/-! ## C123: integral coefficients -/

/-- `polyint` with the constant first: divide by the new index and put a zero in front. -/
noncomputable def polyintFrom : ℕ → List ℝ → List ℝ
  | _, [] => []
  | k, a :: l => a / (k : ℝ) :: polyintFrom (k + 1) l

/-- `polyint` with the highest power first. -/
noncomputable def polyint (c : List ℝ) : List ℝ := (0 :: polyintFrom 1 c.reverse).reverse

theorem polyder_int (n : ℕ) (c : List ℝ) : polyderFrom (n + 1) (polyintFrom (n + 1) c) = c := by
  induction c generalizing n with
  | nil => rfl
  | cons a l ih =>
    simp only [polyintFrom, polyderFrom, ih (n + 1)]
    congr 1
    have : ((n + 1 : ℕ) : ℝ) ≠ 0 := by positivity
    field_simp

/-- `polyint_over_x` (2896, 3496): the integral of everything but the constant, divided by the variable, and the constant as the factor of the logarithm. -/
noncomputable def polyintOverX (c : List ℝ) : List ℝ × ℝ := (polyint c.dropLast, c.getLast?.getD 0)

/-- `polyint_stable` (3548): the integral in the scaled variable divided by the scale. -/
noncomputable def polyintStable (s : ℝ) (c : List ℝ) : List ℝ := (polyint c).map (1 / s * ·)

theorem polyint_deriv (c : List ℝ) (x : ℝ) : HasDerivAt (horner (polyint c)) (horner c x) x := by
  have h := horner_deriv (polyint c) x
  refine h.congr_deriv ?_
  unfold polyint
  rw [List.reverse_reverse, show polyder (0 :: polyintFrom 1 c.reverse) = polyderFrom (0 + 1) (polyintFrom (0 + 1) c.reverse) from rfl, polyder_int, List.reverse_reverse]

theorem horner_concat (c : List ℝ) (a x : ℝ) : horner (c ++ [a]) x = horner c x * x + a := by
  simp [horner, List.foldl_append]

/-- The stored coefficients integrate the polynomial, the polynomial over the temperature, and the polynomial in the scaled temperature. -/
theorem C123_integrals (c : List ℝ) (T : ℝ) : HasDerivAt (horner (polyint c)) (horner c T) T ∧
    (0 < T → HasDerivAt (fun T => horner (polyintOverX c).1 T + (polyintOverX c).2 * log T) (horner c T / T) T) ∧
    (∀ k Tmin Tmax Tc, k.basis = .stable → k.ex = false → k.tau = false → Tmin < Tmax →
      HasDerivAt (fun T => horner (polyintStable (setCorr k Tmin Tmax Tc c).scale c) ((setCorr k Tmin Tmax Tc c).arg T)) ((setCorr k Tmin Tmax Tc c).value 0 T) T) := by
  refine ⟨polyint_deriv c T, fun hT => ?_, fun k Tmin Tmax Tc hb hx ht hlt => ?_⟩
  · have h := (polyint_deriv c.dropLast T).fun_add (((hasDerivAt_log hT.ne').const_mul (c.getLast?.getD 0)))
    refine h.congr_deriv ?_
    rcases List.eq_nil_or_concat c with rfl | ⟨l, a, rfl⟩
    · simp [horner]
    · rw [List.concat_eq_append, List.dropLast_concat, horner_concat]
      simp only [List.getLast?_append, List.getLast?_singleton, Option.some_or, Option.getD_some]
      field_simp
  · set f := setCorr k Tmin Tmax Tc c with hf
    have hk : f.kind = k := rfl
    have hs : f.scale = 2 / (Tmax - Tmin) := by
      obtain ⟨b, x, t⟩ := k
      simp only at hb hx ht
      subst hb hx ht
      simp [hf, setCorr, offsetScale]
    have hs0 : f.scale ≠ 0 := by
      rw [hs]
      have : (0 : ℝ) < Tmax - Tmin := by linarith
      positivity
    have e2 : f.arg = fun T => f.offset + f.scale * T := by
      funext y
      simp [Fit.arg, Fit.u, hk, ht]
    have hu : HasDerivAt f.arg f.scale T := by
      rw [e2]
      exact (((hasDerivAt_id T).const_mul f.scale).const_add f.offset).congr_deriv (by ring)
    have hp : HasDerivAt (horner (polyintStable f.scale c)) (1 / f.scale * horner c (f.arg T)) (f.arg T) := by
      have e3 : horner (polyintStable f.scale c) = fun x => 1 / f.scale * horner (polyint c) x := by
        funext x
        exact horner_map _ _ _
      rw [e3]
      exact (polyint_deriv c (f.arg T)).const_mul _
    refine (hp.comp T hu).congr_deriv ?_
    have : f.value 0 T = horner c (f.arg T) := by
      simp [Fit.value, Fit.w, Fit.q, Fit.d, hk, hx, ht, hb, Basis.val]
      rfl
    rw [this]
    field_simp

example : (⟨.stable, false, false⟩ : Kind).basis = .stable ∧ (200 : ℝ) < 1000 := ⟨rfl, by norm_num⟩

/-- The outcome of `calculate_integral` (4166-4209) for the plain polynomial and the stable one: the stored coefficients, the quadrature, or a `KeyError`. -/
inductive IntOutcome
  | stored
  | quadrature
  | keyError
  deriving DecidableEq, Repr

/-- `isCp` is the test of the units (3493, 3545): only heat capacities store integral coefficients in a correlation. -/
def integralOutcome (b : Basis) (corr isCp : Bool) : IntOutcome := match b, corr with
  | .poly, false => .stored
  | .poly, true => if isCp then .stored else .keyError
  | .stable, false => .quadrature
  | .stable, true => if isCp then .stored else .quadrature
  | .cheb, _ => .quadrature

/-- A polynomial correlation of a property that is not a heat capacity has no integral: the look-up of its coefficients raises a `KeyError`, where the fit uses stored coefficients. -/
theorem C123_integral_fails : integralOutcome .poly true false = .keyError ∧ integralOutcome .poly false false = .stored ∧
    ∀ b corr isCp, integralOutcome b corr isCp = .keyError → b = .poly ∧ corr = true ∧ isCp = false := by
  refine ⟨by decide, by decide, fun b corr isCp h => ?_⟩
  cases b <;> cases corr <;> cases isCp <;> simp_all [integralOutcome]

end Verif.Fits
