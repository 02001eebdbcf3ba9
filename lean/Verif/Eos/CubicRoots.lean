import Mathlib.Analysis.SpecialFunctions.Pow.Real
import Mathlib.Analysis.SpecialFunctions.Pow.Complex
import Mathlib.Analysis.SpecialFunctions.Sqrt
import Mathlib.Analysis.Calculus.Deriv.Inv
import Mathlib.Analysis.Calculus.Deriv.Mul
import Mathlib.Analysis.Calculus.Deriv.Add
import Mathlib.Tactic.FieldSimp
import Mathlib.Tactic.LinearCombination
import Mathlib.Topology.Order.IntermediateValue

/-!
# Volume solvers (`thermo/eos_volume.py`)

* C27: the cubic polynomial of the solvers is the equation of state.
* C28: closed-form solvers, deflation and Halley's iteration.

The gas constant `R` is an argument. Numbers are exact (reals, or complex numbers for the complex
closed form); rounding tests such as `x + P == P` are exact comparisons here.
-/

namespace Verif.Cubic

/-! ## Model -/

section Poly

variable {K : Type*} [Field K]

/-- The dimensionless coefficients of the solvers (863-872, 1142-1151, 1201-1210, 1250-1259, 1308-1317,
1590-1601, and 362-372 for mpmath): `Z³ + b Z² + c Z + d`. -/
def coefB (R T P b delta : K) : K := delta * (P * (1 / (R * T))) - b * (P * (1 / (R * T))) - 1

@[inherit_doc coefB] def coefC (R T P b delta epsilon a : K) : K :=
  let PRT := P * (1 / (R * T))
  a * PRT * (1 / (R * T)) + epsilon * PRT * PRT - delta * PRT * (b * PRT + 1)

@[inherit_doc coefB] def coefD (R T P b epsilon a : K) : K :=
  let PRT := (P * (1 / (R * T)))
  (-(epsilon * PRT * PRT * (b * PRT + 1) + a * PRT * (1 / (R * T)) * (b * PRT)))

/-- The value of the polynomial. -/
def poly (b c d z : K) : K := z ^ 3 + b * z ^ 2 + c * z + d

/-- Pressure of the generic cubic equation of state (eos.py 306-354; the residual at 884 plus `P`). -/
def pressure (R T b delta epsilon a V : K) : K := R * T / (V - b) - a / (V ^ 2 + delta * V + epsilon)

end Poly

/-- The residual of the iterative solvers (884, 778, 964, 983). -/
noncomputable def fval (R T P b delta epsilon a V : ℝ) : ℝ :=
  R * T * (1 / (V - b)) - P - a * (1 / (V * (V + delta) + epsilon))

/-- Its slope (896-899, 968, 987; 586 in `volume_solutions_NR`). -/
noncomputable def fder (R T b delta epsilon a V : ℝ) : ℝ :=
  let x0_inv := 1 / (V - b)
  let x1_inv := 1 / (V * (V + delta) + epsilon)
  let x2 := V + V + delta
  x2 * (a * (x1_inv * x1_inv)) - R * T * (x0_inv * x0_inv)

/-- Its curvature (900, 969, 988). -/
noncomputable def fder2 (R T b delta epsilon a V : ℝ) : ℝ :=
  let x0_inv := 1 / (V - b)
  let x1_inv := 1 / (V * (V + delta) + epsilon)
  let x2 := V + V + delta
  let x3 := a * (x1_inv * x1_inv)
  (R * T + R * T) * (x0_inv * x0_inv) * x0_inv - (a + a) * x2 * x2 * (x1_inv * x1_inv) * x1_inv + x3 + x3

/-! ## C27 -/

section Poly

variable {K : Type*} [Field K]

/-- Cleared of denominators, the cubic is `(V − b)·Q(V)` times the residual of the pressure equation. -/
theorem poly_eq {R T P b delta epsilon a V : K} (hRT : R * T ≠ 0) :
    poly (coefB R T P b delta) (coefC R T P b delta epsilon a) (coefD R T P b epsilon a) (P * V / (R * T))
      = P ^ 2 / (R * T) ^ 3 * (P * ((V - b) * (V ^ 2 + delta * V + epsilon))
        - R * T * (V ^ 2 + delta * V + epsilon) + a * (V - b)) := by
  simp only [poly, coefB, coefC, coefD]
  generalize R * T = RT at *
  field_simp
  ring

/-- **C27.** A volume off the poles solves the solvers' cubic (through `Z = P V/(R T)`) exactly when the
equation of state returns the pressure there. Over any field, so for real and complex volumes. -/
theorem C27_iff {R T P b delta epsilon a V : K} (hRT : R * T ≠ 0) (hP : P ≠ 0) (hb : V - b ≠ 0)
    (hq : V ^ 2 + delta * V + epsilon ≠ 0) :
    poly (coefB R T P b delta) (coefC R T P b delta epsilon a) (coefD R T P b epsilon a) (P * V / (R * T)) = 0
      ↔ pressure R T b delta epsilon a V = P := by
  rw [poly_eq hRT, mul_eq_zero, or_iff_right (div_ne_zero (pow_ne_zero _ hP) (pow_ne_zero _ hRT)), pressure]
  constructor
  · intro h
    rw [div_sub_div _ _ hb hq, div_eq_iff (mul_ne_zero hb hq)]
    linear_combination -h
  · intro h
    rw [div_sub_div _ _ hb hq, div_eq_iff (mul_ne_zero hb hq)] at h
    linear_combination -h

/-- The hypotheses are met at a solution: `R T = 1`, `P = 1/2`, `b = 1`, `a = 0`, `V = 3`. -/
example : pressure (K := ℚ) 1 1 1 0 0 0 3 = 1 / 2 ∧
    poly (coefB (K := ℚ) 1 1 (1 / 2) 1 0) (coefC 1 1 (1 / 2) 1 0 0 0) (coefD 1 1 (1 / 2) 1 0 0) (3 / 2) = 0 := by
  constructor <;> norm_num [pressure, poly, coefB, coefC, coefD]

/-- **C27.** On the poles the cubic can vanish only when the two poles coincide or the attraction is zero:
at the covolume iff `b² + δb + ε = 0`, at a pole of the attraction iff `a = 0` or `V = b`. -/
theorem C27_poles {R T P b delta epsilon a : K} (hRT : R * T ≠ 0) (hP : P ≠ 0) :
    (poly (coefB R T P b delta) (coefC R T P b delta epsilon a) (coefD R T P b epsilon a) (P * b / (R * T)) = 0
      ↔ b ^ 2 + delta * b + epsilon = 0) ∧
    ∀ V, V ^ 2 + delta * V + epsilon = 0 →
      (poly (coefB R T P b delta) (coefC R T P b delta epsilon a) (coefD R T P b epsilon a) (P * V / (R * T)) = 0
        ↔ a = 0 ∨ V = b) := by
  have hk := div_ne_zero (pow_ne_zero 2 hP) (pow_ne_zero 3 hRT)
  constructor
  · rw [poly_eq hRT, mul_eq_zero, or_iff_right hk]
    constructor
    · intro h
      have : R * T * (b ^ 2 + delta * b + epsilon) = 0 := by linear_combination -h
      exact (mul_eq_zero.mp this).resolve_left hRT
    · intro h; rw [h]; ring
  · intro V hV
    rw [poly_eq hRT, mul_eq_zero, or_iff_right hk, hV]
    simp only [mul_zero, sub_zero, zero_add]
    rw [mul_eq_zero, sub_eq_zero]

/-- **C27.** The shortcut of `volume_solutions_NR` (517-523) for `a_alpha = 0`, also taken by
`volume_solutions_halley` (851-852) when the attraction vanishes: `b + R T/P` is the only solution off the
poles. `volume_solutions_ideal` (1355) is the case `b = 0`. -/
theorem C27_no_attraction {R T P b delta epsilon V : K} (hRT : R * T ≠ 0) (hP : P ≠ 0) :
    (V - b ≠ 0 ∧ pressure R T b delta epsilon 0 V = P) ↔ V = b + R * T / P := by
  simp only [pressure, zero_div, sub_zero]
  constructor
  · rintro ⟨h, h'⟩
    rw [div_eq_iff h] at h'
    rw [h']
    field_simp
    ring
  · rintro rfl
    constructor
    · rw [add_sub_cancel_left]; exact div_ne_zero hRT hP
    · rw [add_sub_cancel_left, div_div_cancel₀ hRT]

/-- **C27.** At most three volumes solve the equation. -/
theorem C27_three {R T P b delta epsilon a : K} (hRT : R * T ≠ 0) (hP : P ≠ 0) {V1 V2 V3 V4 : K}
    (h1 : V1 ≠ V2) (h2 : V1 ≠ V3) (h3 : V2 ≠ V3)
    (hs : ∀ V ∈ [V1, V2, V3, V4], V - b ≠ 0 ∧ V ^ 2 + delta * V + epsilon ≠ 0 ∧ pressure R T b delta epsilon a V = P) :
    V4 = V1 ∨ V4 = V2 ∨ V4 = V3 := by
  have key : ∀ V ∈ [V1, V2, V3, V4], P * ((V - b) * (V ^ 2 + delta * V + epsilon))
        - R * T * (V ^ 2 + delta * V + epsilon) + a * (V - b) = 0 := by
    intro V hV
    obtain ⟨a1, a2, a3⟩ := hs V hV
    have := (C27_iff (a := a) hRT hP a1 a2).mpr a3
    rw [poly_eq hRT, mul_eq_zero, or_iff_right (div_ne_zero (pow_ne_zero _ hP) (pow_ne_zero _ hRT))] at this
    exact this
  have k1 := key V1 (by simp)
  have k2 := key V2 (by simp)
  have k3 := key V3 (by simp)
  have k4 := key V4 (by simp)
  -- divided differences of the cubic
  have d2 : V1 ^ 2 + V1 * V2 + V2 ^ 2 + (delta - b - R * T / P) * (V1 + V2) + (epsilon - b * delta - R * T * delta / P + a / P) = 0 := by
    have : (V1 - V2) * (P * (V1 ^ 2 + V1 * V2 + V2 ^ 2) + (P * (delta - b) - R * T) * (V1 + V2) + (P * (epsilon - b * delta) - R * T * delta + a)) = 0 := by
      linear_combination k1 - k2
    have := (mul_eq_zero.mp this).resolve_left (sub_ne_zero.mpr h1)
    field_simp
    linear_combination this
  have d3 : V1 ^ 2 + V1 * V3 + V3 ^ 2 + (delta - b - R * T / P) * (V1 + V3) + (epsilon - b * delta - R * T * delta / P + a / P) = 0 := by
    have : (V1 - V3) * (P * (V1 ^ 2 + V1 * V3 + V3 ^ 2) + (P * (delta - b) - R * T) * (V1 + V3) + (P * (epsilon - b * delta) - R * T * delta + a)) = 0 := by
      linear_combination k1 - k3
    have := (mul_eq_zero.mp this).resolve_left (sub_ne_zero.mpr h2)
    field_simp
    linear_combination this
  have e : V1 + V2 + V3 + (delta - b - R * T / P) = 0 := by
    have : (V2 - V3) * (V1 + V2 + V3 + (delta - b - R * T / P)) = 0 := by linear_combination d2 - d3
    exact (mul_eq_zero.mp this).resolve_left (sub_ne_zero.mpr h3)
  by_cases g1 : V4 = V1
  · exact Or.inl g1
  by_cases g2 : V4 = V2
  · exact Or.inr (Or.inl g2)
  right; right
  have d4 : V1 ^ 2 + V1 * V4 + V4 ^ 2 + (delta - b - R * T / P) * (V1 + V4) + (epsilon - b * delta - R * T * delta / P + a / P) = 0 := by
    have : (V1 - V4) * (P * (V1 ^ 2 + V1 * V4 + V4 ^ 2) + (P * (delta - b) - R * T) * (V1 + V4) + (P * (epsilon - b * delta) - R * T * delta + a)) = 0 := by
      linear_combination k1 - k4
    have := (mul_eq_zero.mp this).resolve_left (sub_ne_zero.mpr (Ne.symm g1))
    field_simp
    linear_combination this
  have e4 : V1 + V2 + V4 + (delta - b - R * T / P) = 0 := by
    have : (V2 - V4) * (V1 + V2 + V4 + (delta - b - R * T / P)) = 0 := by linear_combination d2 - d4
    exact (mul_eq_zero.mp this).resolve_left (sub_ne_zero.mpr (Ne.symm g2))
  linear_combination e4 - e

/-- A van der Waals fluid with three volumes `2`, `3`, `6` at one pressure. -/
example := C27_three (K := ℚ) (R := 1) (T := 10) (P := 1) (b := 1) (delta := 0) (epsilon := 0) (a := 36)
  (V1 := 2) (V2 := 3) (V3 := 6) (V4 := 6) (by norm_num) (by norm_num) (by norm_num) (by norm_num) (by norm_num)
  (by
    intro V hV
    simp only [List.mem_cons, List.not_mem_nil, or_false] at hV
    rcases hV with rfl | rfl | rfl | rfl <;> norm_num [pressure])

example := C27_poles (K := ℚ) (R := 1) (T := 10) (P := 1) (b := 1) (delta := 0) (epsilon := 0) (a := 36)
  (by norm_num) (by norm_num)

example := C27_no_attraction (K := ℚ) (R := 1) (T := 10) (P := 1) (b := 1) (delta := 0) (epsilon := 0) (V := 11)
  (by norm_num) (by norm_num)

end Poly

/-- **C27.** The slope and curvature used by the Newton and Halley steps are the derivatives of the
residual. -/
theorem C27_slopes {R T P b delta epsilon a V : ℝ} (hb : V - b ≠ 0) (hq : V * (V + delta) + epsilon ≠ 0) :
    HasDerivAt (fval R T P b delta epsilon a) (fder R T b delta epsilon a V) V ∧
    HasDerivAt (fder R T b delta epsilon a) (fder2 R T b delta epsilon a V) V := by
  have h0 : HasDerivAt (fun V : ℝ => V - b) 1 V := (hasDerivAt_id V).sub_const b
  have h1 : HasDerivAt (fun V : ℝ => V * (V + delta) + epsilon) (V + V + delta) V := by
    refine HasDerivAt.congr_deriv (((hasDerivAt_id V).mul ((hasDerivAt_id V).add_const delta)).add_const epsilon) ?_
    simp only [id]; ring
  have i0 : HasDerivAt (fun V : ℝ => 1 / (V - b)) (-(1 / (V - b) * (1 / (V - b)))) V := by
    simp only [one_div]
    refine HasDerivAt.congr_deriv (h0.fun_inv hb) ?_
    field_simp
  have i1 : HasDerivAt (fun V : ℝ => 1 / (V * (V + delta) + epsilon))
      (-((V + V + delta) * (1 / (V * (V + delta) + epsilon) * (1 / (V * (V + delta) + epsilon))))) V := by
    simp only [one_div]
    refine HasDerivAt.congr_deriv (h1.fun_inv hq) ?_
    generalize V * (V + delta) + epsilon = q at *
    field_simp
  have i2 : HasDerivAt (fun V : ℝ => V + V + delta) 2 V := by
    refine HasDerivAt.congr_deriv (((hasDerivAt_id V).add (hasDerivAt_id V)).add_const delta) ?_
    norm_num
  constructor
  · refine HasDerivAt.congr_deriv (((i0.const_mul (R * T)).sub_const P).sub (i1.const_mul a)) ?_
    simp only [fder]
    ring
  · refine HasDerivAt.congr_deriv ((i2.mul ((i1.mul i1).const_mul a)).sub ((i0.mul i0).const_mul (R * T))) ?_
    simp only [fder2, Pi.mul_apply]
    ring

example := C27_slopes (R := 8) (T := 300) (P := 1) (b := 1) (delta := 2) (epsilon := -1) (a := 5) (V := 3)
  (by norm_num) (by norm_num)

theorem fval_eq {R T P b delta epsilon a V : ℝ} :
    fval R T P b delta epsilon a V = pressure R T b delta epsilon a V - P := by
  simp only [fval, pressure, mul_one_div]
  rw [show V * (V + delta) + epsilon = V ^ 2 + delta * V + epsilon by ring]
  ring

/-! ## C27: the fallback of `volume_solutions_mpmath` -/

/-- `volume_solutions_mpmath` (360-419) rebinds the name `b` to the polynomial coefficient at 370, before
the recursive call (392), the starting values (395, 406) and the residual of the last resort `findroot`
(408-409). This is the residual of the fallback. -/
noncomputable def mpmathFallback (R T P b delta epsilon a V : ℝ) : ℝ :=
  fval R T P (coefB R T P b delta) delta epsilon a V

/-- **C27, disagreement.** A volume accepted by the fallback of `volume_solutions_mpmath` need not satisfy
the equation of state: the covolume was overwritten by a polynomial coefficient. -/
theorem C27_mpmath_fallback_fails :
    ∃ R T P b delta epsilon a V : ℝ, 0 < R ∧ 0 < T ∧ 0 < P ∧ 0 < b ∧ b < V ∧
      mpmathFallback R T P b delta epsilon a V = 0 ∧ pressure R T b delta epsilon a V ≠ P := by
  refine ⟨1, 1, 1 / 4, 1, 0, 0, 0, 11 / 4, ?_⟩
  norm_num [mpmathFallback, fval, coefB, pressure]

/-! ## C28: the closed form with one real root -/

/-- The real cube root with the sign split of the code (1625-1633, 1537-1547). -/
noncomputable def cbrt (x : ℝ) : ℝ := if 0 ≤ x then x ^ (1 / 3 : ℝ) else -((-x) ^ (1 / 3 : ℝ))

theorem cbrt_cube (x : ℝ) : cbrt x ^ 3 = x := by
  unfold cbrt
  split
  · rename_i h
    rw [← Real.rpow_natCast, ← Real.rpow_mul h]; norm_num
  · rename_i h
    have h' : 0 ≤ -x := by linarith
    have e : ((-x) ^ (1 / 3 : ℝ)) ^ 3 = -x := by
      rw [← Real.rpow_natCast, ← Real.rpow_mul h']; norm_num
    rw [neg_pow, e]; ring

/-- `g` and `h` of the depressed cubic (1614-1616), for leading coefficient one. -/
noncomputable def depF (b c : ℝ) : ℝ := c - b * b * (1 / 3)
@[inherit_doc depF] noncomputable def depG (b c d : ℝ) : ℝ := (2 * (b * b * b) - 9 * b * c + 27 * d) * (1 / 27)
@[inherit_doc depF] noncomputable def depH (f g : ℝ) : ℝ := 1 / 4 * (g * g) + f * f * f * (1 / 27)

/-- The closed form of `high_alpha_one_root` (1603-1637) before its Newton polish, in terms of the
coefficients; `none` stands for the returned zero of line 1619 (its second test `abs(g) > 1e152` is left
out: it also returns zero). -/
noncomputable def oneRoot (b c d : ℝ) : Option ℝ :=
  let g := depG b c d
  let h := depH (depF b c) g
  if h < 200 then none
  else some (cbrt (-(1 / 2) * g + √h) + cbrt (-(1 / 2 * g) - √h) - b * (1 / 3))

/-- The Cardano root for `h ≥ 0`, whatever the threshold. -/
theorem cardano {b c d : ℝ} (hh : 0 ≤ depH (depF b c) (depG b c d)) :
    poly b c d (cbrt (-(1 / 2) * depG b c d + √(depH (depF b c) (depG b c d)))
      + cbrt (-(1 / 2 * depG b c d) - √(depH (depF b c) (depG b c d))) - b * (1 / 3)) = 0 := by
  set f := depF b c with hf
  set g := depG b c d with hg
  set r := √(depH f g) with hr
  have hr2 : r * r = 1 / 4 * (g * g) + f * f * f * (1 / 27) := by
    rw [hr, Real.mul_self_sqrt hh, depH]
  obtain ⟨S, hS⟩ : ∃ S, S = cbrt (-(1 / 2) * g + r) := ⟨_, rfl⟩
  obtain ⟨U, hU⟩ : ∃ U, U = cbrt (-(1 / 2 * g) - r) := ⟨_, rfl⟩
  have S3 : S ^ 3 = -(1 / 2) * g + r := by rw [hS]; exact cbrt_cube _
  have U3 : U ^ 3 = -(1 / 2 * g) - r := by rw [hU]; exact cbrt_cube _
  have hSU : S * U = -f / 3 := by
    have h3 : (S * U) ^ 3 = (-f / 3) ^ 3 := by
      rw [mul_pow, S3, U3]
      linear_combination -hr2
    have hodd : Odd 3 := by decide
    exact hodd.strictMono_pow.injective h3
  rw [← hS, ← hU]
  have ef : f = c - b * b * (1 / 3) := by rw [hf, depF]
  have eg : g = (2 * (b * b * b) - 9 * b * c + 27 * d) * (1 / 27) := by rw [hg, depG]
  have : poly b c d (S + U - b * (1 / 3)) = (S ^ 3 + U ^ 3) + (S + U) * (3 * (S * U) + f) + g := by
    simp only [poly]
    rw [ef, eg]
    ring
  rw [this, S3, U3, hSU]
  ring

/-- With `h > 0` the cubic has only one real root. -/
theorem unique_root {b c d x y : ℝ} (hh : 0 < depH (depF b c) (depG b c d)) (hx : poly b c d x = 0)
    (hy : poly b c d y = 0) : x = y := by
  by_contra hne
  -- shift to the depressed cubic
  obtain ⟨u, hu⟩ : ∃ u, u = x + b / 3 := ⟨_, rfl⟩
  obtain ⟨v, hv⟩ : ∃ v, v = y + b / 3 := ⟨_, rfl⟩
  have ex : u ^ 3 + depF b c * u + depG b c d = 0 := by
    rw [hu]; simp only [poly, depF, depG] at *; linear_combination hx
  have ey : v ^ 3 + depF b c * v + depG b c d = 0 := by
    rw [hv]; simp only [poly, depF, depG] at *; linear_combination hy
  have huv : u - v ≠ 0 := by rw [hu, hv]; intro h; exact hne (by linarith)
  generalize depF b c = f at *
  generalize depG b c d = g at *
  have hf : f = -(u ^ 2 + u * v + v ^ 2) := by
    have : (u - v) * (u ^ 2 + u * v + v ^ 2 + f) = 0 := by linear_combination ex - ey
    have := (mul_eq_zero.mp this).resolve_left huv
    linarith
  have hg : g = u * v * (u + v) := by
    have e := ex
    rw [hf] at e
    linear_combination e
  simp only [depH] at hh
  have : 1 / 4 * (g * g) + f * f * f * (1 / 27)
      = -(1 / 108) * ((u - v) * (2 * u + v) * (u + 2 * v)) ^ 2 := by
    rw [hf, hg]; ring
  rw [this] at hh
  nlinarith [sq_nonneg ((u - v) * (2 * u + v) * (u + 2 * v))]

/-- **C28.** When `high_alpha_one_root` does not give up, its closed form is a root of the cubic and the
only real one. -/
theorem C28_one_root {b c d x : ℝ} (h : oneRoot b c d = some x) :
    poly b c d x = 0 ∧ ∀ y, poly b c d y = 0 → y = x := by
  unfold oneRoot at h
  dsimp only at h
  split at h
  · cases h
  · rename_i hh
    have hpos : 0 < depH (depF b c) (depG b c d) := by linarith
    have hx : poly b c d x = 0 := by
      have := cardano hpos.le
      simp only [Option.some.injEq] at h
      rw [h] at this
      exact this
    exact ⟨hx, fun y hy => unique_root hpos hy hx⟩

/-- The threshold is reached: `Z³ − 1000`. -/
example : ∃ x, oneRoot 0 0 (-1000) = some x := by
  have : ¬ depH (depF 0 0) (depG 0 0 (-1000)) < 200 := by norm_num [depH, depF, depG]
  exact ⟨_, by simp only [oneRoot, this, if_false]; rfl⟩

/-- `volume_solutions_doubledouble_float` (1513-1551), taking the double-double operations as exact: line
1518 multiplies `-3 b` by `-3 c`, and line 1543 tests the temperature instead of `Tr`, so that the cube root
is taken of `Tr` itself (its real cube root here) for positive temperatures. The result is `x1`; `none`
when `h ≤ 0`. -/
noncomputable def ddRoot (b c d : ℝ) : Option ℝ :=
  let f := c - 1 / 3 * (b * b)
  let g := ((b * b + b * b) * b + (-3 * b) * (-3 * c) + 27 * d) / 27
  let h := 1 / 4 * (g * g) + f * (f * f) / 27
  if 0 < h then some (cbrt (-(1 / 2) * g + √h) + cbrt (-(1 / 2) * g + -√h) + -(1 / 3) * b) else none

/-- **C28, disagreement.** The double-double closed form does not return a root: with `b = 0`,
`δ = ε = 0`, `R T = P = 1` and `a = 1/3` the only real root is zero, while the function returns a positive
number. The sign of `9 b c` is wrong. -/
theorem C28_doubledouble_fails :
    ∃ b c d x : ℝ, b = coefB (1 : ℝ) 1 1 0 0 ∧ c = coefC (1 : ℝ) 1 1 0 0 0 (1 / 3) ∧ d = coefD (1 : ℝ) 1 1 0 0 (1 / 3) ∧
      ddRoot b c d = some x ∧ poly b c d x ≠ 0 := by
  have hh : (0 : ℝ) < 1 / 4 * ((-5 / 27) * (-5 / 27)) := by norm_num
  refine ⟨-1, 1 / 3, 0, cbrt (5 / 27) + cbrt 0 + 1 / 3, by norm_num [coefB], by norm_num [coefC],
    by norm_num [coefD], ?_, ?_⟩
  · have e1 : (1 / 3 : ℝ) - 1 / 3 * (-1 * -1) = 0 := by norm_num
    have e2 : ((-1 * -1 + -1 * -1) * -1 + -3 * -1 * (-3 * (1 / 3)) + 27 * 0) / 27 = (-5 / 27 : ℝ) := by norm_num
    have e3 : (1 / 4 * (-5 / 27 * (-5 / 27)) + 0 * (0 * 0) / 27 : ℝ) = (5 / 54) ^ 2 := by norm_num
    have e4 : √((5 / 54 : ℝ) ^ 2) = 5 / 54 := Real.sqrt_sq (by norm_num)
    simp only [ddRoot, e1, e2, e3, e4]
    rw [if_pos (by norm_num)]
    norm_num
  · have h0 : cbrt 0 = 0 := by
      have := cbrt_cube 0
      exact pow_eq_zero_iff (n := 3) (by norm_num) |>.mp this
    have hp : 0 < cbrt (5 / 27) := by
      unfold cbrt
      rw [if_pos (by norm_num)]
      exact Real.rpow_pos_of_pos (by norm_num) _
    rw [h0]
    set x := cbrt (5 / 27) + 0 + 1 / 3 with hx
    have hxp : 0 < x := by rw [hx]; linarith
    intro h
    have : x * (x ^ 2 - x + 1 / 3) = 0 := by simp only [poly] at h; linear_combination h
    have := (mul_eq_zero.mp this).resolve_left hxp.ne'
    nlinarith [sq_nonneg (x - 1 / 2)]

/-- Double-double numbers: a value split in two parts. Addition is taken as exact. -/
structure DD where
  /-- leading part -/
  r : ℝ
  /-- error part -/
  e : ℝ

/-- The number a pair stands for. -/
def DD.val (x : DD) : ℝ := x.r + x.e

/-- **C28, disagreement.** Line 1373 of `volume_solutions_doubledouble_inline` subtracts `P δ` as
`(-x3r, x3e)`: the error part keeps its sign. With any exact addition the result is off by twice the error
part, so the extra precision is lost whenever `P δ` is not exactly a float. -/
theorem C28_doubledouble_inline_sign (add : DD → DD → DD) (hadd : ∀ x y, (add x y).val = x.val + y.val)
    (w0 x3 : DD) :
    (add w0 ⟨-x3.r, x3.e⟩).val = w0.val - x3.val + 2 * x3.e ∧
    ((add w0 ⟨-x3.r, x3.e⟩).val = w0.val - x3.val ↔ x3.e = 0) := by
  have : (add w0 ⟨-x3.r, x3.e⟩).val = w0.val - x3.val + 2 * x3.e := by
    rw [hadd]; simp only [DD.val]; ring
  refine ⟨this, ?_⟩
  rw [this]
  constructor <;> intro h <;> linarith

example := C28_doubledouble_inline_sign (fun x y => ⟨x.r + y.r, x.e + y.e⟩)
  (fun x y => by simp only [DD.val]; ring) ⟨1, 0⟩ ⟨1, 1 / 8⟩

/-! ## C28: the complex closed form -/

open Complex in
/-- `volume_solutions_fast` (1049-1094) (and `volume_solutions_sympy` 251-284, which is the same formula):
`none` stands for the division by zero at 1089 when the cube root vanishes. -/
noncomputable def fast (R T P b delta epsilon a : ℂ) : Option (ℂ × ℂ × ℂ) :=
  let x24 := 1 + (√3 : ℝ) * I
  let x24_inv := 1 / 4 - (√3 / 4 : ℝ) * I
  let x26 := 1 - (√3 : ℝ) * I
  let x26_inv := 1 / 4 + (√3 / 4 : ℝ) * I
  let x0 := 1 / P
  let x1 := P * b
  let x2 := R * T
  let x3 := P * delta
  let x4 := x1 + x2 - x3
  let x5 := x0 * x4
  let x6 := a * b
  let x7 := epsilon * x1
  let x8 := epsilon * x2
  let x9 := x0 * x0
  let x10 := P * epsilon
  let x11 := delta * x1
  let x12 := delta * x2
  let x17 := -x4
  let x17_2 := x17 * x17
  let x18 := x0 * x17_2
  let tm1 := x12 - a + (x11 - x10)
  let t0 := x6 + x7 + x8
  let t1 := 3 * tm1 + x18
  let t2 := 9 * x0 * x17 * tm1 + 2 * x17_2 * x17 * x9 - 27 * t0
  let x4x9 := x4 * x9
  let x19 := (-(27 / 2) * x0 * t0 - 9 / 2 * x4x9 * tm1 - x4 * x4x9 * x5
    + 1 / 2 * (x9 * (-4 * x0 * t1 * t1 * t1 + t2 * t2)) ^ (1 / 2 : ℂ)) ^ (1 / 3 : ℂ)
  if x19 = 0 then none else
  let x20 := -t1 / x19
  let x22 := x5 + x5
  let x25 := 4 * x0 * x20
  some ((x0 * x20 - x19 + x5) * (1 / 3), (x19 * x24 + x22 - x25 * x24_inv) * (1 / 6),
    (x19 * x26 + x22 - x25 * x26_inv) * (1 / 6))

/-- Cardano's formula over the complex numbers: with `C³` a root of `X² − Δ₁X + Δ₀³`, the three numbers are
the roots with multiplicity. -/
theorem cardano_complex {x5 C D0 D1 w wi v vi : ℂ} (hC : C ≠ 0) (h3 : C ^ 3 * C ^ 3 - D1 * C ^ 3 + D0 ^ 3 = 0)
    (hw : w + v = 2) (hwv : w * v = 4) (hwi : w * wi = 1) (hvi : v * vi = 1) (X : ℂ) :
    (X - (x5 - C - D0 / C) * (1 / 3)) * (X - (C * w + (x5 + x5) + 4 * (D0 / C) * wi) * (1 / 6))
      * (X - (C * v + (x5 + x5) + 4 * (D0 / C) * vi) * (1 / 6))
    = X ^ 3 - x5 * X ^ 2 + (x5 ^ 2 - D0) / 3 * X + (D1 - x5 ^ 3 + 3 * x5 * D0) / 27 := by
  obtain ⟨E, hE⟩ : ∃ E, E = D0 / C := ⟨_, rfl⟩
  have hCE : C * E = D0 := by rw [hE]; field_simp
  rw [← hE]
  have hw0 : w ≠ 0 := left_ne_zero_of_mul_eq_one hwi
  have hv0 : v ≠ 0 := left_ne_zero_of_mul_eq_one hvi
  have ewi : wi = v / 4 := by
    have : w * wi = w * (v / 4) := by rw [hwi]; linear_combination -hwv / 4
    exact mul_left_cancel₀ hw0 this
  have evi : vi = w / 4 := by
    have : v * vi = v * (w / 4) := by rw [hvi]; linear_combination -hwv / 4
    exact mul_left_cancel₀ hv0 this
  have h3' : C ^ 3 + E ^ 3 = D1 := by
    have : C ^ 3 * (C ^ 3 + E ^ 3 - D1) = 0 := by
      have e : C ^ 3 * E ^ 3 = D0 ^ 3 := by rw [← mul_pow, hCE]
      linear_combination h3 + e
    have := (mul_eq_zero.mp this).resolve_left (pow_ne_zero 3 hC)
    linear_combination this
  have ev : v = 2 - w := by linear_combination hw
  have hw2 : w ^ 2 = 2 * w - 4 := by rw [ev] at hwv; linear_combination -hwv
  rw [ewi, evi, ev, ← hCE, ← h3']
  -- expand in `w`, reducing with `w² = 2w − 4`
  have p1 : (X - (C * w + (x5 + x5) + 4 * E * ((2 - w) / 4)) * (1 / 6))
      * (X - (C * (2 - w) + (x5 + x5) + 4 * E * (w / 4)) * (1 / 6))
      = X ^ 2 - X * (4 * x5 + 2 * C + 2 * E) * (1 / 6)
        + (4 * x5 ^ 2 + 4 * x5 * (C + E) + 4 * C ^ 2 + 4 * E ^ 2 - 4 * C * E) * (1 / 36) := by
    linear_combination (-(1 / 36) * (C - E) ^ 2) * hw2
  rw [mul_assoc, p1]
  ring

/-- The polynomial in the volume itself, `V³ − x₅V² − (tm₁/P) V − t₀/P`. -/
theorem volume_poly {R T P b delta epsilon a V : ℂ} (hRT : R * T ≠ 0) (hP : P ≠ 0) :
    poly (coefB R T P b delta) (coefC R T P b delta epsilon a) (coefD R T P b epsilon a) (P * V / (R * T))
      = (P / (R * T)) ^ 3 * (V ^ 3 - (1 / P * (P * b + R * T - P * delta)) * V ^ 2
        - (delta * (R * T) - a + (delta * (P * b) - P * epsilon)) / P * V
        - (a * b + epsilon * (P * b) + epsilon * (R * T)) / P) := by
  rw [poly_eq hRT]
  generalize R * T = RT at *
  field_simp
  ring

open Complex in
theorem sqrt3_facts : let w := 1 + (√3 : ℝ) * I; let v := 1 - (√3 : ℝ) * I
    w + v = 2 ∧ w * v = 4 ∧ w * (1 / 4 - (√3 / 4 : ℝ) * I) = 1 ∧ v * (1 / 4 + (√3 / 4 : ℝ) * I) = 1 := by
  have h3 : ((√3 : ℝ) : ℂ) * ((√3 : ℝ) : ℂ) = 3 := by
    rw [← Complex.ofReal_mul, Real.mul_self_sqrt (by norm_num)]; norm_num
  have hI : I * I = -1 := Complex.I_mul_I
  push_cast
  refine ⟨by ring, ?_, ?_, ?_⟩
  · linear_combination (-1 : ℂ) * (I * I) * h3 - 3 * hI
  · linear_combination (-1 / 4 : ℂ) * (I * I) * h3 - 3 / 4 * hI
  · linear_combination (-1 / 4 : ℂ) * (I * I) * h3 - 3 / 4 * hI

/-- **C28.** The three numbers returned by `volume_solutions_fast` are the roots of the cubic with
multiplicity: the cubic at any volume is the product of the differences. -/
theorem C28_fast {R T P b delta epsilon a : ℂ} (hRT : R * T ≠ 0) (hP : P ≠ 0) {V1 V2 V3 : ℂ}
    (h : fast R T P b delta epsilon a = some (V1, V2, V3)) (V : ℂ) :
    poly (coefB R T P b delta) (coefC R T P b delta epsilon a) (coefD R T P b epsilon a) (P * V / (R * T))
      = (P / (R * T)) ^ 3 * ((V - V1) * (V - V2) * (V - V3)) := by
  rw [volume_poly hRT hP]
  obtain ⟨f1, f2, f3, f4⟩ := sqrt3_facts
  unfold fast at h
  dsimp only at h
  split at h
  · cases h
  rename_i hC
  simp only [Option.some.injEq, Prod.mk.injEq] at h
  obtain ⟨h1, h2, h3⟩ := h
  obtain ⟨E, hE⟩ : ∃ E, E = -(27 / 2) * (1 / P) * (a * b + epsilon * (P * b) + epsilon * (R * T))
      - 9 / 2 * ((P * b + R * T - P * delta) * (1 / P * (1 / P))) * (delta * (R * T) - a + (delta * (P * b) - P * epsilon))
      - (P * b + R * T - P * delta) * ((P * b + R * T - P * delta) * (1 / P * (1 / P))) * (1 / P * (P * b + R * T - P * delta)) := ⟨_, rfl⟩
  rw [← hE] at h1 h2 h3 hC
  obtain ⟨D, hD⟩ : ∃ D, D = 1 / P * (1 / P) * (-4 * (1 / P)
        * (3 * (delta * (R * T) - a + (delta * (P * b) - P * epsilon)) + 1 / P * (-(P * b + R * T - P * delta) * -(P * b + R * T - P * delta)))
        * (3 * (delta * (R * T) - a + (delta * (P * b) - P * epsilon)) + 1 / P * (-(P * b + R * T - P * delta) * -(P * b + R * T - P * delta)))
        * (3 * (delta * (R * T) - a + (delta * (P * b) - P * epsilon)) + 1 / P * (-(P * b + R * T - P * delta) * -(P * b + R * T - P * delta)))
      + (9 * (1 / P) * -(P * b + R * T - P * delta) * (delta * (R * T) - a + (delta * (P * b) - P * epsilon))
          + 2 * (-(P * b + R * T - P * delta) * -(P * b + R * T - P * delta)) * -(P * b + R * T - P * delta) * (1 / P * (1 / P))
          - 27 * (a * b + epsilon * (P * b) + epsilon * (R * T)))
        * (9 * (1 / P) * -(P * b + R * T - P * delta) * (delta * (R * T) - a + (delta * (P * b) - P * epsilon))
          + 2 * (-(P * b + R * T - P * delta) * -(P * b + R * T - P * delta)) * -(P * b + R * T - P * delta) * (1 / P * (1 / P))
          - 27 * (a * b + epsilon * (P * b) + epsilon * (R * T)))) := ⟨_, rfl⟩
  rw [← hD] at h1 h2 h3 hC
  obtain ⟨s, hs⟩ : ∃ s, s = D ^ (1 / 2 : ℂ) := ⟨_, rfl⟩
  have hs2 : s * s = D := by
    rw [hs, ← sq, one_div]
    have := Complex.cpow_nat_inv_pow D (n := 2) (by norm_num)
    exact_mod_cast this
  rw [← hs] at h1 h2 h3 hC
  obtain ⟨C, hCd⟩ : ∃ C, C = (E + 1 / 2 * s) ^ (1 / 3 : ℂ) := ⟨_, rfl⟩
  have hC3 : C ^ 3 = E + 1 / 2 * s := by
    rw [hCd, one_div (3 : ℂ)]
    have := Complex.cpow_nat_inv_pow (E + 1 / 2 * s) (n := 3) (by norm_num)
    exact_mod_cast this
  rw [← hCd] at h1 h2 h3 hC
  -- name the invariants
  obtain ⟨x5, hx5⟩ : ∃ x5, x5 = 1 / P * (P * b + R * T - P * delta) := ⟨_, rfl⟩
  obtain ⟨m, hm⟩ : ∃ m, m = (delta * (R * T) - a + (delta * (P * b) - P * epsilon)) / P := ⟨_, rfl⟩
  obtain ⟨n, hn⟩ : ∃ n, n = (a * b + epsilon * (P * b) + epsilon * (R * T)) / P := ⟨_, rfl⟩
  have ex4 : P * b + R * T - P * delta = P * x5 := by rw [hx5]; field_simp
  have em : delta * (R * T) - a + (delta * (P * b) - P * epsilon) = P * m := by rw [hm]; field_simp
  have en : a * b + epsilon * (P * b) + epsilon * (R * T) = P * n := by rw [hn]; field_simp
  rw [← hm, ← hn, ← hx5]
  rw [ex4, em, en] at hE hD
  simp only [ex4, em] at h1 h2 h3
  have hE' : E = (-2 * x5 ^ 3 - 9 * x5 * m - 27 * n) / 2 := by rw [hE]; field_simp; ring
  have hD' : D = -4 * (x5 ^ 2 + 3 * m) ^ 3 + (-2 * x5 ^ 3 - 9 * x5 * m - 27 * n) ^ 2 := by
    rw [hD]; field_simp; ring
  have key := cardano_complex (x5 := x5) (D0 := x5 ^ 2 + 3 * m) (D1 := -2 * x5 ^ 3 - 9 * x5 * m - 27 * n) hC
    (by rw [hC3, hE']
        have : s ^ 2 = -4 * (x5 ^ 2 + 3 * m) ^ 3 + (-2 * x5 ^ 3 - 9 * x5 * m - 27 * n) ^ 2 := by rw [sq, hs2, hD']
        linear_combination (1 / 4 : ℂ) * this) f1 f2 f3 f4 V
  have g1 : V1 = (x5 - C - (x5 ^ 2 + 3 * m) / C) * (1 / 3) := by
    rw [← h1]; field_simp; ring
  have g2 : V2 = (C * (1 + (√3 : ℝ) * Complex.I) + (x5 + x5) + 4 * ((x5 ^ 2 + 3 * m) / C)
      * (1 / 4 - (√3 / 4 : ℝ) * Complex.I)) * (1 / 6) := by
    rw [← h2]
    generalize (1 / 4 - ((√3 / 4 : ℝ) : ℂ) * Complex.I) = wi
    generalize (1 + ((√3 : ℝ) : ℂ) * Complex.I) = w
    field_simp
    ring
  have g3 : V3 = (C * (1 - (√3 : ℝ) * Complex.I) + (x5 + x5) + 4 * ((x5 ^ 2 + 3 * m) / C)
      * (1 / 4 + (√3 / 4 : ℝ) * Complex.I)) * (1 / 6) := by
    rw [← h3]
    generalize (1 / 4 + ((√3 / 4 : ℝ) : ℂ) * Complex.I) = wi
    generalize (1 - ((√3 : ℝ) : ℂ) * Complex.I) = w
    field_simp
    ring
  rw [g1, g2, g3, key]
  congr 1
  ring

/-- **C28, disagreement.** `volume_solutions_fast` divides by zero at a critical point, where the cubic has
a triple root: van der Waals with `R T = P = 1`, `b = 1/8`, `a = 27/64` has the solution `V = 3/8`. -/
theorem C28_fast_zero_division :
    fast 1 1 1 (1 / 8) 0 0 (27 / 64) = none ∧ pressure (1 : ℂ) 1 (1 / 8) 0 0 (27 / 64) (3 / 8) = 1 := by
  constructor
  · unfold fast
    dsimp only
    rw [if_pos]
    norm_num
  · norm_num [pressure]

/-! ## C28: deflation and Halley's iteration -/

/-- `fluids.numerics.deflate_cubic_real_roots`: the roots of the quadratic left after removing the root
`x0`; `(0, 0)` when they are not real. -/
noncomputable def deflate (b d x0 : ℝ) : ℝ × ℝ :=
  let F := b + x0
  let G := -d / x0
  let D := F * F - 4 * G
  if D < 0 then (0, 0) else (1 / 2 * (√D - F), 1 / 2 * (-√D - F))

/-- **C28.** After a non-zero root of the cubic was found, deflation (928) returns the two others whenever
they are real, and when it reports none (`D < 0`) the found root is the only real one. -/
theorem C28_deflate {b c d x0 : ℝ} (h0 : x0 ≠ 0) (hx : poly b c d x0 = 0) :
    let D := (b + x0) * (b + x0) - 4 * (-d / x0)
    (D < 0 → ∀ y, poly b c d y = 0 → y = x0) ∧
    (0 ≤ D → ∀ y, poly b c d y = (y - x0) * (y - (deflate b d x0).1) * (y - (deflate b d x0).2)) := by
  intro D
  have fac : ∀ y, poly b c d y = (y - x0) * (y ^ 2 + (b + x0) * y + -d / x0) := by
    intro y
    have hc : c = -d / x0 - x0 * (b + x0) := by
      simp only [poly] at hx
      field_simp
      linear_combination hx
    simp only [poly]
    rw [hc]
    field_simp
    ring
  constructor
  · intro hD y hy
    rw [fac] at hy
    rcases mul_eq_zero.mp hy with h | h
    · linarith
    · exfalso
      have : (2 * y + (b + x0)) ^ 2 = D := by simp only [D]; linear_combination 4 * h
      nlinarith [sq_nonneg (2 * y + (b + x0))]
  · intro hD y
    have hs : √D * √D = D := Real.mul_self_sqrt hD
    rw [fac]
    have hd : deflate b d x0 = (1 / 2 * (√D - (b + x0)), 1 / 2 * (-√D - (b + x0))) := by
      simp only [deflate]
      rw [if_neg (not_lt.mpr hD)]
    rw [hd]
    simp only
    have : -d / x0 = ((b + x0) * (b + x0) - D) / 4 := by simp only [D]; ring
    rw [this]
    linear_combination (1 / 4 * (y - x0)) * hs

/-- `Z³ − 6Z² + 11Z − 6` at the root `1`. -/
example := C28_deflate (b := -6) (c := 11) (d := -6) (x0 := 1) (by norm_num) (by norm_num [poly])

/-- The parameters of a solve. -/
structure Par where
  /-- gas constant -/
  R : ℝ
  /-- temperature -/
  T : ℝ
  /-- pressure -/
  P : ℝ
  /-- covolume -/
  b : ℝ
  /-- linear coefficient -/
  delta : ℝ
  /-- constant coefficient -/
  epsilon : ℝ
  /-- attraction -/
  a : ℝ

namespace Par

/-- The residual. -/
noncomputable def f (p : Par) (V : ℝ) : ℝ := fval p.R p.T p.P p.b p.delta p.epsilon p.a V
/-- Its slope. -/
noncomputable def f1 (p : Par) (V : ℝ) : ℝ := fder p.R p.T p.b p.delta p.epsilon p.a V
/-- Its curvature. -/
noncomputable def f2 (p : Par) (V : ℝ) : ℝ := fder2 p.R p.T p.b p.delta p.epsilon p.a V

/-- One Halley step (902-910; also 971-974, 990-993). -/
noncomputable def halley (p : Par) (V : ℝ) : ℝ :=
  let step := p.f V * (1 / p.f1 V)
  let step_den := 1 - 1 / 2 * step * p.f2 V * (1 / p.f1 V)
  V - (if step_den ≠ 0 then step / step_den else step)

end Par

/-- State of the loop of `volume_solutions_halley` at the head of an iteration. -/
structure HState where
  /-- lower end -/
  low : ℝ
  /-- upper end -/
  high : ℝ
  /-- current volume -/
  V : ℝ

/-- Outcome of an iteration. -/
inductive HOut where
  /-- next state -/
  | next (s : HState)
  /-- left the loop with this volume -/
  | done (V : ℝ)
  /-- `1.0/fder` with a zero slope -/
  | error

/-- The bracket update of iteration `j` (885-895). -/
noncomputable def bracket (p : Par) (j : ℕ) (s : HState) : ℝ × ℝ :=
  if p.f s.V < 0 then (s.low, s.V)
  else (s.V, if j = 0 then
    (let h := p.R * p.T * (1 / p.P) * 10; if h < 10 * p.b then 10 * p.b else h) else s.high)

/-- One iteration of `volume_solutions_halley` (880-924). Not modelled: the poles inside the iteration
(`V = b`, excluded by the bracket). -/
noncomputable def hstep (p : Par) (j : ℕ) (s : HState) : HOut :=
  open Classical in
  let lh := bracket p j s
  if p.f1 s.V = 0 then .error else
  let V_new := p.halley s.V
  if |1 - V_new / s.V| < 6 / 10 ^ 16 ∨ (25 < j ∧ |p.f s.V * (1 / p.P)| < 1 / 10 ^ 12) then .done V_new
  else if V_new ≤ lh.1 ∨ V_new ≥ lh.2 then
    let V_mid := 1 / 2 * (lh.1 + lh.2)
    if V_mid = lh.1 ∨ V_mid = lh.2 then .done s.V else .next ⟨lh.1, lh.2, V_mid⟩
  else .next ⟨lh.1, lh.2, V_new⟩

/-- The start (875-879). -/
noncomputable def hinit (p : Par) : HState :=
  let low := p.b * (1 + 8 / 10 ^ 16)
  let h := (-(p.R * p.T * (1 / p.P))) * coefD p.R p.T p.P p.b p.epsilon p.a
    / coefC p.R p.T p.P p.b p.delta p.epsilon p.a
  let high := if h ≤ low then p.b * (1 + 1 / 10 ^ 6) else h
  ⟨low, high, high⟩

/-- States reachable after `j` iterations. -/
inductive HReach (p : Par) : ℕ → HState → Prop where
  /-- the start -/
  | init : HReach p 0 (hinit p)
  /-- an iteration that goes on -/
  | step {j s s'} : HReach p j s → hstep p j s = .next s' → HReach p (j + 1) s'

/-- Physically sensible parameters: the attraction has no pole above the covolume. -/
structure Par.Ok (p : Par) : Prop where
  R : 0 < p.R
  T : 0 < p.T
  P : 0 < p.P
  b : 0 < p.b
  a : 0 ≤ p.a
  q : ∀ V, p.b < V → 0 < V * (V + p.delta) + p.epsilon

theorem f_neg {p : Par} (hp : p.Ok) {V : ℝ} (h1 : 10 * p.b ≤ V) (h2 : p.R * p.T * (1 / p.P) * 10 ≤ V) :
    p.f V < 0 := by
  have hR := hp.R; have hT := hp.T; have hP := hp.P; have hb := hp.b
  have hV : p.b < V := by linarith
  have hq := hp.q V hV
  have hRT : 0 < p.R * p.T := mul_pos hR hT
  have h3 : p.R * p.T * 10 ≤ V * p.P := by
    have := mul_le_mul_of_nonneg_right h2 hP.le
    have e : p.R * p.T * (1 / p.P) * 10 * p.P = p.R * p.T * 10 := by field_simp
    linarith
  have h4 : p.R * p.T * (1 / (V - p.b)) < p.P := by
    rw [mul_one_div, div_lt_iff₀ (by linarith)]
    nlinarith
  have h5 : 0 ≤ p.a * (1 / (V * (V + p.delta) + p.epsilon)) := mul_nonneg hp.a (by positivity)
  simp only [Par.f, fval]
  linarith

theorem hinit_facts {p : Par} (hp : p.Ok) : (hinit p).low < (hinit p).high ∧ (hinit p).V = (hinit p).high ∧
    (hinit p).low = p.b * (1 + 8 / 10 ^ 16) := by
  have hb := hp.b
  refine ⟨?_, rfl, rfl⟩
  simp only [hinit]
  split
  · rename_i h
    nlinarith
  · rename_i h
    exact not_le.mp h

/-- The invariant of the loop. -/
structure HInv (p : Par) (j : ℕ) (s : HState) : Prop where
  low : p.b * (1 + 8 / 10 ^ 16) ≤ s.low
  lowV : s.low < s.V
  Vhigh : s.V ≤ s.high
  /-- the lower end is the start value or has a non-negative residual -/
  flow : s.low = p.b * (1 + 8 / 10 ^ 16) ∨ 0 ≤ p.f s.low
  /-- after the first iteration the residual at the upper end is negative -/
  fhigh : 0 < j → p.f s.high < 0 ∧ s.V < s.high
  first : j = 0 → s.V = s.high

theorem bracket_facts {p : Par} (hp : p.Ok) {j : ℕ} {s : HState} (h : HInv p j s) :
    p.b * (1 + 8 / 10 ^ 16) ≤ (bracket p j s).1 ∧
    ((bracket p j s).1 = p.b * (1 + 8 / 10 ^ 16) ∨ 0 ≤ p.f (bracket p j s).1) ∧
    p.f (bracket p j s).2 < 0 := by
  have hb := hp.b
  unfold bracket
  split
  · rename_i hf
    exact ⟨h.low, h.flow, hf⟩
  · rename_i hf
    refine ⟨le_trans h.low h.lowV.le, Or.inr (not_lt.mp hf), ?_⟩
    dsimp only
    split
    · split
      · rename_i h1
        exact f_neg hp le_rfl h1.le
      · rename_i h1
        exact f_neg hp (not_lt.mp h1) le_rfl
    · rename_i hj
      exact (h.fhigh (Nat.pos_of_ne_zero hj)).1

/-- The lower end stays below the upper end: above the fallback upper end the residual is negative. -/
theorem bracket_lt {p : Par} (hp : p.Ok) {j : ℕ} {s : HState} (h : HInv p j s) :
    (bracket p j s).1 < (bracket p j s).2 := by
  have hb := hp.b
  unfold bracket
  split
  · exact h.lowV
  · rename_i hf
    dsimp only
    split
    · -- `V` has a non-negative residual, everything above the fallback end has a negative one
      split
      · rename_i h1
        by_contra hc
        exact hf (f_neg hp (not_lt.mp hc) (le_trans h1.le (not_lt.mp hc)))
      · rename_i h1
        by_contra hc
        exact hf (f_neg hp (le_trans (not_lt.mp h1) (not_lt.mp hc)) (not_lt.mp hc))
    · rename_i hj
      exact (h.fhigh (Nat.pos_of_ne_zero hj)).2

theorem hinv_step {p : Par} (hp : p.Ok) {j : ℕ} {s s' : HState} (h : HInv p j s) (hs : hstep p j s = .next s') :
    HInv p (j + 1) s' := by
  obtain ⟨b1, b2, b3⟩ := bracket_facts hp h
  have b4 := bracket_lt hp h
  unfold hstep at hs
  dsimp only at hs
  split at hs
  · cases hs
  split at hs
  · cases hs
  split at hs
  · split at hs
    · cases hs
    · cases hs
      exact ⟨b1, by dsimp only; linarith, by dsimp only; linarith, b2, fun _ => ⟨b3, by dsimp only; linarith⟩,
        fun h => absurd h (by omega)⟩
  · rename_i hn
    push Not at hn
    cases hs
    exact ⟨b1, hn.1, hn.2.le, b2, fun _ => ⟨b3, hn.2⟩, fun h => absurd h (by omega)⟩

theorem hreach_inv {p : Par} (hp : p.Ok) {j : ℕ} {s : HState} (h : HReach p j s) : HInv p j s := by
  induction h with
  | init =>
    obtain ⟨i1, i2, i3⟩ := hinit_facts hp
    exact ⟨i3.ge, by rw [i2]; exact i1, i2.le, Or.inl i3, fun h => absurd h (lt_irrefl 0), fun _ => i2⟩
  | step _ hs ih => exact hinv_step hp ih hs

/-- **C28.** Throughout Halley's iteration the volume stays inside its bracket, above the covolume, and
from the second iteration on the residual is negative at the upper end and non-negative at the lower end
unless that is still the start value just above the covolume. Hence, when the residual is non-negative at
that start value, the bracket always contains a volume satisfying the equation of state exactly. -/
theorem C28_halley_bracket {p : Par} (hp : p.Ok) {j : ℕ} {s : HState} (h : HReach p j s) :
    p.b < s.low ∧ s.low < s.V ∧ s.V ≤ s.high ∧
    (0 < j → p.f s.high < 0 ∧ (s.low = p.b * (1 + 8 / 10 ^ 16) ∨ 0 ≤ p.f s.low)) ∧
    (0 < j → 0 ≤ p.f (p.b * (1 + 8 / 10 ^ 16)) →
      ∃ V, s.low ≤ V ∧ V < s.high ∧ pressure p.R p.T p.b p.delta p.epsilon p.a V = p.P) := by
  have hi := hreach_inv hp h
  have hb := hp.b
  have hlow : p.b < s.low := lt_of_lt_of_le (by nlinarith) hi.low
  refine ⟨hlow, hi.lowV, hi.Vhigh, fun hj => ⟨(hi.fhigh hj).1, hi.flow⟩, fun hj h0 => ?_⟩
  have hl : 0 ≤ p.f s.low := by
    rcases hi.flow with e | e
    · rw [e]; exact h0
    · exact e
  have hle : s.low ≤ s.high := hi.lowV.le.trans hi.Vhigh
  have hcont : ContinuousOn p.f (Set.Icc s.low s.high) := by
    intro V hV
    have hVb : p.b < V := lt_of_lt_of_le hlow hV.1
    exact ((C27_slopes (R := p.R) (T := p.T) (P := p.P) (a := p.a) (sub_ne_zero.mpr hVb.ne')
      (hp.q V hVb).ne').1).continuousAt.continuousWithinAt
  have := intermediate_value_Icc' hle hcont
  obtain ⟨V, hV, hfV⟩ := this ⟨(hi.fhigh hj).1.le, hl⟩
  refine ⟨V, hV.1, lt_of_le_of_ne hV.2 ?_, ?_⟩
  · rintro rfl
    exact absurd hfV (hi.fhigh hj).1.ne
  · have : p.f V = pressure p.R p.T p.b p.delta p.epsilon p.a V - p.P := fval_eq
    linarith

/-- **C28.** How the iteration ends: with the Halley iterate of the current volume, and only if it changed by less than
6e-16 relative to it, or after more than 25 iterations if the residual is below 1e-12 of the pressure; and it ends as
soon as the change is that small. It never stops because the bracket has no interior. -/
theorem C28_halley_exit {p : Par} (hp : p.Ok) {j : ℕ} {s : HState} (h : HReach p j s) (h1 : p.f1 s.V ≠ 0) :
    (∀ V, hstep p j s = .done V ↔ V = p.halley s.V ∧ (|1 - V / s.V| < 6 / 10 ^ 16 ∨
      (25 < j ∧ |pressure p.R p.T p.b p.delta p.epsilon p.a s.V - p.P| / p.P < 1 / 10 ^ 12))) := by
  intro V
  have hf : |p.f s.V * (1 / p.P)| = |pressure p.R p.T p.b p.delta p.epsilon p.a s.V - p.P| / p.P := by
    rw [show p.f s.V = pressure p.R p.T p.b p.delta p.epsilon p.a s.V - p.P from fval_eq, mul_one_div, abs_div,
      abs_of_pos hp.P]
  have hlt := bracket_lt hp (hreach_inv hp h)
  rw [← hf]
  unfold hstep
  dsimp only
  rw [if_neg h1]
  split
  · rename_i hc
    constructor
    · intro e
      cases e
      exact ⟨rfl, hc⟩
    · rintro ⟨rfl, -⟩
      rfl
  · rename_i hc
    have no : ¬ (V = p.halley s.V ∧ (|1 - V / s.V| < 6 / 10 ^ 16 ∨ (25 < j ∧ |p.f s.V * (1 / p.P)| < 1 / 10 ^ 12))) := by
      rintro ⟨rfl, h2⟩
      exact hc h2
    split
    · rw [if_neg (by
        rintro (e | e)
        · linarith
        · linarith)]
      exact ⟨(fun e => nomatch e), fun e => absurd e no⟩
    · exact ⟨(fun e => nomatch e), fun e => absurd e no⟩

/-- **C28.** A volume that the Halley step leaves in place satisfies the equation of state, and solutions
are left in place (so polishing does not move exact roots). -/
theorem C28_halley_fixed {p : Par} {V : ℝ} (h1 : p.f1 V ≠ 0) :
    p.halley V = V ↔ pressure p.R p.T p.b p.delta p.epsilon p.a V = p.P := by
  have hf : p.f V = pressure p.R p.T p.b p.delta p.epsilon p.a V - p.P := fval_eq
  constructor
  · intro h
    simp only [Par.halley] at h
    have h0 : p.f V * (1 / p.f1 V) = 0 := by
      split at h
      · rename_i hd
        have : p.f V * (1 / p.f1 V) / (1 - 1 / 2 * (p.f V * (1 / p.f1 V)) * p.f2 V * (1 / p.f1 V)) = 0 := by linarith
        exact (div_eq_zero_iff.mp this).resolve_right hd
      · linarith
    have : p.f V = 0 := (mul_eq_zero.mp h0).resolve_right (one_div_ne_zero h1)
    linarith
  · intro h
    have : p.f V = 0 := by linarith
    simp only [Par.halley, this]
    norm_num

/-- Parameters of a Peng-Robinson fluid (`δ = 2b`, `ε = -b²`). -/
example : Par.Ok ⟨8, 300, 1, 1, 2, -1, 5⟩ :=
  ⟨by norm_num, by norm_num, by norm_num, by norm_num, by norm_num, fun V hV => by
    simp only at hV ⊢; nlinarith⟩

/-- The residual just above the covolume is positive for these parameters. -/
example : 0 ≤ Par.f ⟨8, 300, 1, 1, 2, -1, 5⟩ (1 * (1 + 8 / 10 ^ 16)) := by
  norm_num [Par.f, fval]

/-- A run that goes on: a hard-sphere gas with root `2`, which the first Halley step reaches. -/
example : HReach ⟨1, 1, 1, 1, 0, 0, 0⟩ 1 ⟨1 + 1 / 10 ^ 6, 10, 2⟩ := by
  refine .step .init ?_
  norm_num [hstep, hinit, bracket, Par.halley, Par.f, Par.f1, Par.f2, fval, fder, fder2, coefB, coefC, coefD]

example := C28_halley_exit (p := ⟨1, 1, 1, 1, 0, 0, 0⟩)
  ⟨by norm_num, by norm_num, by norm_num, by norm_num, by norm_num, fun V hV => by simp only at hV ⊢; nlinarith⟩ .init
  (by norm_num [Par.f1, fder, hinit, coefC, coefD])

/-- The slope is not zero there. -/
example := C28_halley_fixed (p := ⟨1, 1, 1, 1, 0, 0, 0⟩) (V := 2) (by norm_num [Par.f1, fder])

end Verif.Cubic
