import Mathlib.Analysis.Complex.Basic
import Mathlib.Topology.Order.IntermediateValue
import Mathlib.Tactic.LinearCombination
import Verif.Util.Deriv
import Verif.Eos.CubicRoots

/-!
# C37: the discriminant of the compressibility cubic and its zeros

`thermo/eos.py`: `GCEOS.discriminant` (3923-3945), `GCEOS.P_discriminant_zeros` (4050),
`GCEOS.P_discriminant_zeros_analytical` (4102-4178), the residual of `GCEOS._P_discriminant_zero` (4181-4223),
`VDW.T_discriminant_zeros_analytical` (9312-9330), `VDW.P_discriminant_zeros_analytical` (9384-9392) and
`RK.T_discriminant_zeros_analytical` (9675-9714).

Reals and complex numbers instead of floats. The polynomial root finders `roots_quartic`, `roots_cubic` and `np.roots`
are not modelled: a returned list is any list of complex roots of the polynomial built by the code, and the filters
of the code apply to it. The tolerance 1e-12 on imaginary parts is read as zero.
-/

namespace Verif.Discriminant

open Verif.Cubic

noncomputable section

/-! ### The code -/

/-- `GCEOS.discriminant` (3923-3945). `T` is the temperature of the object; a given temperature only changes
`a_alpha` (3929-3930). -/
def discriminant (R selfT P b delta epsilon a_alpha : ℝ) : ℝ :=
  let RT := R * selfT
  let RT6 := RT * RT
  let RT6 := RT6 * (RT6 * RT6)
  let x0 := P * P
  let x1 := P * b + RT
  let x2 := a_alpha * b + epsilon * x1
  let x3 := P * epsilon
  let x4 := delta * x1
  let x5 := -P * delta + x1
  let x6 := a_alpha + x3 - x4
  let x2_2 := x2 * x2
  let x5_2 := x5 * x5
  let x6_2 := x6 * x6
  let x7 := -a_alpha - x3 + x4
  x0 * (18 * P * x2 * x5 * x6 + 4 * P * x7 * x7 * x7 - 27 * x0 * x2_2 - 4 * x2 * x5_2 * x5 + x5_2 * x6_2) / RT6

/-- The call with arguments: `own` is the attraction of the object, `aalpha` the method evaluating it. -/
def discriminantCall (R selfT selfP b delta epsilon own : ℝ) (aalpha : ℝ → ℝ) (T P : Option ℝ) : ℝ :=
  discriminant R selfT (P.getD selfP) b delta epsilon (match T with | none => own | some t => aalpha t)

/-- Coefficients of the quartic in pressure (4102-4164), highest power first. -/
def quartic (R T b delta epsilon a_alpha : ℝ) : ℝ × ℝ × ℝ × ℝ × ℝ :=
  let a := a_alpha
  let T_inv := 1 / T
  let x0 := 4 * a
  let x1 := b * x0
  let x2 := a + a
  let x3 := delta * x2
  let x4 := R * T
  let x5 := 4 * epsilon
  let x6 := delta * delta
  let x7 := a * a
  let x8 := T_inv * (1 / R)
  let x9 := 8 * epsilon
  let x10 := b * x9
  let x11 := 4 * delta
  let x12 := delta * x6
  let x13 := 2 * x6
  let x14 := b * x13
  let x15 := a * x8
  let x16 := epsilon * x15
  let x20 := x8 * x8
  let x17 := x20 * x8
  let x18 := b * delta
  let x19 := 6 * x15
  let x21 := x20 * x7
  let x22 := 10 * b
  let x23 := b * b
  let x24 := 6 * x23
  let x25 := x0 * x8
  let x26 := x6 * x6
  let x27 := epsilon * epsilon
  let x28 := 8 * x27
  let x29 := 24 * epsilon
  let x30 := b * x12
  let x31 := epsilon * x13
  let x32 := epsilon * x8
  let x33 := 12 * epsilon
  let x34 := b * x23
  let x35 := x2 * x8
  let x36 := 8 * x21
  let x37 := x15 * x6
  let x38 := delta * x23
  let x39 := b * x28
  let x40 := x34 * x9
  let x41 := epsilon * x12
  let x42 := x23 * x23
  let e := x1 + x3 + x4 * x5 - x4 * x6 - x7 * x8
  let d := 4 * x7 * a * x17 - 10 * delta * x21 + 2 * (epsilon * x11 + x10 - x12 - x14 + x15 * x24 + x18 * x19
    - x21 * x22 + x25 * x6) - 20 * x16
  let c := x8 * ((-x1) * x32 + x12 * x35 + x15 * (12 * x34 + 18 * x38) + x18 * (x29 + x36) + x21 * (x33 - x6)
    + x22 * x37 + x23 * (x29 + x36) - x24 * x6 - x26 + x28 - x3 * x32 - 6 * x30 + x31)
  let b_coeff := 2 * x20 * ((-b) * x26 + delta * (x10 * x15 + x25 * x34) + epsilon * x14
    + x23 * (x15 * x9 - 3 * x12 + x37) - x13 * x34 - x15 * x30 - x16 * x6 + x27 * (x19 + x11) + x33 * x38
    + x35 * x42 + x39 + x40 - x41)
  let a_coeff := x17 * (-2 * b * x41 + delta * (x39 + x40) + x27 * (4 * epsilon - x6) - 2 * x12 * x34
    + x23 * (x28 + x31 - x26) + x42 * (x5 - x6))
  (a_coeff, b_coeff, c, d, e)

/-- A quartic at a complex number. -/
def evalQ (q : ℝ × ℝ × ℝ × ℝ × ℝ) (z : ℂ) : ℂ :=
  q.1 * z ^ 4 + q.2.1 * z ^ 3 + q.2.2.1 * z ^ 2 + q.2.2.2.1 * z + q.2.2.2.2

/-- The filter for `valid=True` in `GCEOS.P_discriminant_zeros_analytical` (4173-4177): real parts of all roots with
non-negative real part. -/
def validP (roots : List ℂ) : List ℝ := (roots.filter fun r => decide (0 ≤ r.re)).map Complex.re

/-- The filter for `valid=True` in the `T_discriminant_zeros_analytical` methods (9328, 9712). -/
def validT (roots : List ℂ) : List ℝ := (roots.filter fun r => decide (0 ≤ r.re ∧ r.im = 0)).map Complex.re

/-- The residual and slope of `_P_discriminant_zero` (4187-4217). -/
def zeroErr (R T b delta epsilon a_alpha P : ℝ) : ℝ :=
  let RT := R * T
  let x13 := 1 / RT ^ 6
  let x0 := P * P
  let x1 := P * epsilon
  let x2 := P * b + RT
  let x3 := a_alpha - delta * x2 + x1
  let x3_x3 := x3 * x3
  let x4 := x3 * x3_x3
  let x5 := a_alpha * b + epsilon * x2
  let x6 := 27 * x5 * x5
  let x7 := -P * delta + x2
  let x9 := x7 * x7
  let x8 := x7 * x9
  let x11 := x3 * x5 * x7
  let x12 := -18 * P * x11 + 4 * (P * x4 + x5 * x8) + x0 * x6 - x3_x3 * x9
  (-x0) * x12 * x13
@[inherit_doc zeroErr] def zeroSlope (R T b delta epsilon a_alpha P : ℝ) : ℝ :=
  let RT := R * T
  let x13 := 1 / RT ^ 6
  let x14 := b * epsilon
  let x15 := -b * delta + epsilon
  let x18 := b - delta
  let x0 := P * P
  let x1 := P * epsilon
  let x2 := P * b + RT
  let x3 := a_alpha - delta * x2 + x1
  let x3_x3 := x3 * x3
  let x4 := x3 * x3_x3
  let x5 := a_alpha * b + epsilon * x2
  let x6 := 27 * x5 * x5
  let x7 := -P * delta + x2
  let x9 := x7 * x7
  let x8 := x7 * x9
  let x11 := x3 * x5 * x7
  let x12 := -18 * P * x11 + 4 * (P * x4 + x5 * x8) + x0 * x6 - x3_x3 * x9
  let x16 := P * x15
  let x17 := 9 * x3
  let x19 := x18 * x5
  (-2) * P * x13 * (P * (-P * x17 * x19 + P * x6 - b * x1 * x17 * x7 + 27 * x0 * x14 * x5 + 6 * x3_x3 * x16
    - x3_x3 * x18 * x7 - 9 * x11 + 2 * x14 * x8 - x15 * x3 * x9 - 9 * x16 * x5 * x7 + 6 * x19 * x9 + 2 * x4) + x12)

/-- `VDW.T_discriminant_zeros_analytical` (9312-9321): cubic in temperature. -/
def vdwCubicT (R P a b : ℝ) (z : ℂ) : ℂ :=
  let R_inv := 1 / R
  let R_inv2 := R_inv * R_inv
  let b2 := b * b
  let x1 := P * b2
  let x0 := 12 * x1
  let d := 4 * P * R_inv2 * R_inv * (a * a + x1 * (x1 + 2 * a))
  let c := (x0 - 20 * a) * R_inv2 * b * P
  let b_coeff := (x0 - a) * R_inv
  let a_coeff := 4 * b
  (a_coeff : ℝ) * z ^ 3 + (b_coeff : ℝ) * z ^ 2 + (c : ℝ) * z + (d : ℝ)

/-- `VDW.P_discriminant_zeros_analytical` (9384-9388): cubic in pressure. -/
def vdwCubicP (R T a b : ℝ) (z : ℂ) : ℂ :=
  let d := 4 * b - a / (R * T)
  let c := 12 * b ^ 2 / (R * T) - 20 * a * b / (R ^ 2 * T ^ 2) + 4 * a ^ 2 / (R ^ 3 * T ^ 3)
  let b_coeff := 12 * b ^ 3 / (R ^ 2 * T ^ 2) + 8 * a * b ^ 2 / (R ^ 3 * T ^ 3)
  let a_coeff := 4 * b ^ 4 / (R ^ 3 * T ^ 3)
  (a_coeff : ℝ) * z ^ 3 + (b_coeff : ℝ) * z ^ 2 + (c : ℝ) * z + (d : ℝ)

/-- `RK.T_discriminant_zeros_analytical` (9677-9705): polynomial in `√T`; `a` is `self.a*Tc**0.5`. -/
def rkPoly (R P a b : ℝ) (y : ℂ) : ℂ :=
  let R_inv := 1 / R
  let R_inv2 := R_inv * R_inv
  let P2 := P * P
  let P3 := P2 * P
  let P4 := P2 * P2
  let R_inv4 := R_inv2 * R_inv2
  let R_inv5 := R_inv4 * R_inv
  let R_inv6 := R_inv4 * R_inv2
  let b2 := b * b
  let b3 := b2 * b
  let b4 := b2 * b2
  let a2 := a * a
  let x5 := 15 * a2
  let x8 := 2 * P3
  let x9 := b4 * b * R_inv
  let x13 := 6 * R_inv * R_inv2
  ((P2 * b2 * R_inv2 : ℝ) : ℂ) * y ^ 11
    + ((P3 * b3 * x13 : ℝ) : ℂ) * y ^ 9
    + ((-a * b * P2 * x13 : ℝ) : ℂ) * y ^ 8
    + ((13 * R_inv4 * P4 * b4 : ℝ) : ℂ) * y ^ 7
    + ((-32 * a * P3 * R_inv4 * b2 : ℝ) : ℂ) * y ^ 6
    + ((P2 * R_inv4 * (12 * P3 * x9 + a2) : ℝ) : ℂ) * y ^ 5
    + ((-42 * a * b3 * P4 * R_inv5 : ℝ) : ℂ) * y ^ 4
    + ((b * R_inv5 * x8 * (x5 + x8 * x9) : ℝ) : ℂ) * y ^ 3
    + ((-12 * P2 * P3 * a * R_inv6 * b4 : ℝ) : ℂ) * y ^ 2
    + ((-R_inv6 * b2 * P4 * x5 : ℝ) : ℂ) * y
    + ((-4 * a2 * a * P3 * R_inv6 : ℝ) : ℂ)

/-! ### The discriminant -/

variable {R T P b delta epsilon a : ℝ}

/-- Discriminant of a monic cubic in its coefficients. -/
def cubicDisc (b c d : ℝ) : ℝ := 18 * b * c * d - 4 * b ^ 3 * d + b ^ 2 * c ^ 2 - 4 * c ^ 3 - 27 * d ^ 2

theorem discriminant_eq (hRT : R * T ≠ 0) : discriminant R T P b delta epsilon a
    = cubicDisc (coefB R T P b delta) (coefC R T P b delta epsilon a) (coefD R T P b epsilon a) := by
  unfold discriminant cubicDisc coefB coefC coefD
  dsimp only
  generalize R * T = x at *
  field_simp
  ring

/-- **C37.** `discriminant` is the product of the squared differences of the three roots of the compressibility
cubic. -/
theorem C37_discriminant (hRT : R * T ≠ 0) {z1 z2 z3 : ℂ}
    (h : ∀ z : ℂ, z ^ 3 + (coefB R T P b delta : ℝ) * z ^ 2 + (coefC R T P b delta epsilon a : ℝ) * z
      + (coefD R T P b epsilon a : ℝ) = (z - z1) * (z - z2) * (z - z3)) :
    (discriminant R T P b delta epsilon a : ℂ) = ((z1 - z2) * (z1 - z3) * (z2 - z3)) ^ 2 := by
  rw [discriminant_eq hRT]
  generalize coefB R T P b delta = B at *
  generalize coefC R T P b delta epsilon a = C at *
  generalize coefD R T P b epsilon a = D at *
  have h0 := h 0
  have h1 := h 1
  have h2 := h (-1)
  have hD : (D : ℂ) = -(z1 * z2 * z3) := by linear_combination h0
  have hB : (B : ℂ) = -(z1 + z2 + z3) := by linear_combination (h1 + h2) / 2 - h0
  have hC : (C : ℂ) = z1 * z2 + z1 * z3 + z2 * z3 := by linear_combination (h1 - h2) / 2
  unfold cubicDisc
  push_cast
  rw [hB, hC, hD]
  ring

/-- A monic real cubic has a real root. -/
theorem exists_root (B C D : ℝ) : ∃ x, poly B C D x = 0 := by
  set M := 1 + |B| + |C| + |D| with hM
  have h1 : 1 ≤ M := by have := abs_nonneg B; have := abs_nonneg C; have := abs_nonneg D; linarith
  have hB := abs_le.1 (le_refl |B|)
  have hC := abs_le.1 (le_refl |C|)
  have hD := abs_le.1 (le_refl |D|)
  have hcont : Continuous (poly B C D) := by unfold poly; fun_prop
  have hM2 : M ≤ M ^ 2 := by nlinarith
  have hM0 : 0 ≤ M ^ 2 := by positivity
  have hb : |B| * M ^ 2 + |C| * M + |D| < M ^ 3 := by
    have e : M ^ 3 = M ^ 2 + |B| * M ^ 2 + |C| * M ^ 2 + |D| * M ^ 2 := by
      have : M ^ 3 = M ^ 2 * M := by ring
      rw [this]; nth_rewrite 2 [hM]; ring
    rw [e]
    have := mul_le_mul_of_nonneg_left hM2 (abs_nonneg C)
    have := mul_le_mul_of_nonneg_left (h1.trans hM2) (abs_nonneg D)
    nlinarith
  have hneg : poly B C D (-M) ≤ 0 := by
    unfold poly
    have := mul_le_mul_of_nonneg_right hB.2 hM0
    have := mul_le_mul_of_nonneg_right hC.1 (by linarith : 0 ≤ M)
    nlinarith
  have hpos : 0 ≤ poly B C D M := by
    unfold poly
    have := mul_le_mul_of_nonneg_right hB.1 hM0
    have := mul_le_mul_of_nonneg_right hC.1 (by linarith : 0 ≤ M)
    nlinarith
  obtain ⟨x, _, hx⟩ := intermediate_value_Icc (by linarith : -M ≤ M) hcont.continuousOn
    (show (0 : ℝ) ∈ Set.Icc _ _ from ⟨hneg, hpos⟩)
  exact ⟨x, hx⟩

/-- The cubic divided by a known root. -/
theorem factor {B C D x : ℝ} (hx : poly B C D x = 0) (z : ℝ) :
    poly B C D z = (z - x) * (z ^ 2 + (B + x) * z + (C + (B + x) * x)) := by
  unfold poly at *
  linear_combination hx

theorem disc_factor {B C D x : ℝ} (hx : poly B C D x = 0) : cubicDisc B C D
    = ((B + x) ^ 2 - 4 * (C + (B + x) * x)) * (x ^ 2 + (B + x) * x + (C + (B + x) * x)) ^ 2 := by
  have hD : D = -(x ^ 3 + B * x ^ 2 + C * x) := by unfold poly at hx; linarith
  subst hD
  unfold cubicDisc
  ring

/-- **C37.** The sign of `discriminant` counts the real roots of the compressibility cubic: positive for three
different real roots, negative for exactly one real root that is simple, zero for a repeated root. -/
theorem C37_sign (hRT : R * T ≠ 0) :
    let p := poly (coefB R T P b delta) (coefC R T P b delta epsilon a) (coefD R T P b epsilon a)
    (0 < discriminant R T P b delta epsilon a ↔ ∃ x y z : ℝ, x < y ∧ y < z ∧ ∀ t, p t = (t - x) * (t - y) * (t - z))
    ∧ (discriminant R T P b delta epsilon a < 0 ↔
        ∃ x u v : ℝ, v ≠ 0 ∧ ∀ t, p t = (t - x) * ((t - u) ^ 2 + v ^ 2))
    ∧ (discriminant R T P b delta epsilon a = 0 ↔ ∃ x y : ℝ, ∀ t, p t = (t - x) ^ 2 * (t - y)) := by
  dsimp only
  rw [discriminant_eq hRT]
  generalize coefB R T P b delta = B
  generalize coefC R T P b delta epsilon a = C
  generalize coefD R T P b epsilon a = D
  obtain ⟨x, hx⟩ := exists_root B C D
  have hd := disc_factor hx
  have hf := factor hx
  set q := (B + x) ^ 2 - 4 * (C + (B + x) * x) with hq
  set m := x ^ 2 + (B + x) * x + (C + (B + x) * x) with hm
  -- coefficients from a factorisation
  have co : ∀ {r s t : ℝ}, (∀ z, poly B C D z = z ^ 3 + r * z ^ 2 + s * z + t) → B = r ∧ C = s ∧ D = t := by
    intro r s t h
    have h0 := h 0
    have h1 := h 1
    have h2 := h (-1)
    unfold poly at h0 h1 h2
    refine ⟨?_, ?_, ?_⟩ <;> linarith
  have up : (∃ x y z : ℝ, x < y ∧ y < z ∧ ∀ t, poly B C D t = (t - x) * (t - y) * (t - z)) → 0 < cubicDisc B C D := by
    rintro ⟨x, y, z, h1, h2, h⟩
    obtain ⟨e1, e2, e3⟩ := co (r := -(x + y + z)) (s := x * y + x * z + y * z) (t := -(x * y * z))
      (fun t => by rw [h t]; ring)
    have : cubicDisc B C D = ((x - y) * (x - z) * (y - z)) ^ 2 := by rw [e1, e2, e3]; unfold cubicDisc; ring
    rw [this]
    have : (x - y) * (x - z) * (y - z) ≠ 0 := by
      refine mul_ne_zero (mul_ne_zero ?_ ?_) ?_ <;> apply ne_of_lt <;> linarith
    positivity
  have un : (∃ x u v : ℝ, v ≠ 0 ∧ ∀ t, poly B C D t = (t - x) * ((t - u) ^ 2 + v ^ 2)) → cubicDisc B C D < 0 := by
    rintro ⟨x, u, v, hv, h⟩
    obtain ⟨e1, e2, e3⟩ := co (r := -(x + 2 * u)) (s := 2 * u * x + u ^ 2 + v ^ 2) (t := -(x * (u ^ 2 + v ^ 2)))
      (fun t => by rw [h t]; ring)
    have : cubicDisc B C D = -(2 * v * ((x - u) ^ 2 + v ^ 2)) ^ 2 := by rw [e1, e2, e3]; unfold cubicDisc; ring
    rw [this]
    have : 2 * v * ((x - u) ^ 2 + v ^ 2) ≠ 0 := by positivity
    have : 0 < (2 * v * ((x - u) ^ 2 + v ^ 2)) ^ 2 := by positivity
    linarith
  have uz : (∃ x y : ℝ, ∀ t, poly B C D t = (t - x) ^ 2 * (t - y)) → cubicDisc B C D = 0 := by
    rintro ⟨x, y, h⟩
    obtain ⟨e1, e2, e3⟩ := co (r := -(2 * x + y)) (s := x ^ 2 + 2 * x * y) (t := -(x ^ 2 * y))
      (fun t => by rw [h t]; ring)
    rw [e1, e2, e3]; unfold cubicDisc; ring
  refine ⟨⟨fun h => ?_, up⟩, ⟨fun h => ?_, un⟩, ⟨fun h => ?_, uz⟩⟩
  · have hqp : 0 < q := by
      by_contra hn
      have : q * m ^ 2 ≤ 0 := mul_nonpos_of_nonpos_of_nonneg (not_lt.1 hn) (by positivity)
      linarith
    have hm0 : m ≠ 0 := by rintro h0; rw [hd, h0] at h; norm_num at h
    set s := √q with hs
    have hs0 : 0 < s := Real.sqrt_pos.2 hqp
    have hss : s ^ 2 = q := Real.sq_sqrt hqp.le
    set y := (-(B + x) - s) / 2 with hy
    set z := (-(B + x) + s) / 2 with hz
    have hyz : y < z := by rw [hy, hz]; linarith
    have hfac : ∀ t, poly B C D t = (t - x) * (t - y) * (t - z) := by
      intro t; rw [hf t, mul_assoc]; congr 1; rw [hy, hz]; linear_combination hss / 4
    have hxm : m = (x - y) * (x - z) := by rw [hm, hy, hz]; linear_combination hss / 4
    have hxy : x ≠ y := by rintro h; rw [hxm, ← h] at hm0; simp at hm0
    have hxz : x ≠ z := by rintro h; rw [hxm, ← h] at hm0; simp at hm0
    rcases lt_or_gt_of_ne hxy with h1 | h1
    · exact ⟨x, y, z, h1, hyz, hfac⟩
    · rcases lt_or_gt_of_ne hxz with h2 | h2
      · exact ⟨y, x, z, h1, h2, fun t => by rw [hfac]; ring⟩
      · exact ⟨y, z, x, hyz, h2, fun t => by rw [hfac]; ring⟩
  · have hqn : q < 0 := by
      by_contra hn
      have : 0 ≤ q * m ^ 2 := mul_nonneg (not_lt.1 hn) (by positivity)
      linarith
    refine ⟨x, -(B + x) / 2, √(-q) / 2, ?_, fun t => ?_⟩
    · have : 0 < √(-q) := Real.sqrt_pos.2 (by linarith)
      positivity
    · rw [hf t, div_pow, Real.sq_sqrt (by linarith), hq]
      ring
  · rw [hd] at h
    rcases mul_eq_zero.1 h with h | h
    · refine ⟨-(B + x) / 2, x, fun t => ?_⟩
      rw [hf t]
      linear_combination (t - x) * h * (-1 / 4)
    · have hm0 : m = 0 := by simpa using h
      refine ⟨x, -(B + x) - x, fun t => ?_⟩
      rw [hf t]
      linear_combination (t - x) * hm0

/-- The hypothesis is met, with a cubic that has three real roots. -/
example : (8 : ℝ) * 1 ≠ 0 ∧ 0 < discriminant 1 1 (1 / 100) 1 2 (-1) 8 := by
  refine ⟨by norm_num, ?_⟩
  unfold discriminant
  norm_num

/-- **C37.** Called with a temperature other than that of the object, `discriminant` is not the discriminant at the
given temperature: it keeps the product `R*self.T` of the object. -/
theorem C37_discriminant_T_fails :
    discriminantCall 1 1 (1 / 100) 1 2 (-1) 8 (fun _ => 8) (some 2) none ≠ discriminant 1 2 (1 / 100) 1 2 (-1) 8
    ∧ 0 < discriminantCall 1 1 (1 / 100) 1 2 (-1) 8 (fun _ => 8) (some 2) none
    ∧ discriminant 1 2 (1 / 100) 1 2 (-1) 8 < 0 := by
  unfold discriminantCall discriminant
  norm_num

/-- **C37.** Called with a pressure only, or with the object's own temperature, it is. -/
theorem C37_discriminant_P (own : ℝ) (aalpha : ℝ → ℝ) (selfP : ℝ) (hown : own = aalpha T) (P : Option ℝ)
    (t : Option ℝ) (ht : ∀ x, t = some x → x = T) :
    discriminantCall R T selfP b delta epsilon own aalpha t P
      = discriminant R T (P.getD selfP) b delta epsilon (aalpha (t.getD T)) := by
  unfold discriminantCall
  cases t with
  | none => simp [hown]
  | some x => have := ht x rfl; subst this; rfl

/-! ### Zeros in pressure -/

/-- The quartic is the discriminant up to a factor that does not vanish. -/
theorem quartic_eq (hRT : R * T ≠ 0) : evalQ (quartic R T b delta epsilon a) P * ((P ^ 2 : ℝ) : ℂ)
    = ((-(discriminant R T P b delta epsilon a) * (R * T) ^ 3 : ℝ) : ℂ) := by
  have hR : R ≠ 0 := left_ne_zero_of_mul hRT
  have hT : T ≠ 0 := right_ne_zero_of_mul hRT
  unfold evalQ quartic discriminant
  dsimp only
  simp only [← Complex.ofReal_pow, ← Complex.ofReal_mul, ← Complex.ofReal_add]
  refine congrArg Complex.ofReal ?_
  rw [show 1 / T * (1 / R) = 1 / (R * T) by field_simp]
  generalize R * T = x at *
  field_simp
  ring

/-- **C37.** A positive real pressure is a root of the quartic of `P_discriminant_zeros_analytical` exactly if the
discriminant vanishes there. -/
theorem C37_quartic (hRT : R * T ≠ 0) (hP : P ≠ 0) :
    evalQ (quartic R T b delta epsilon a) P = 0 ↔ discriminant R T P b delta epsilon a = 0 := by
  have h := quartic_eq (P := P) (b := b) (delta := delta) (epsilon := epsilon) (a := a) hRT
  have hP2 : ((P ^ 2 : ℝ) : ℂ) ≠ 0 := by exact_mod_cast pow_ne_zero 2 hP
  constructor
  · intro h0
    rw [h0, zero_mul] at h
    have h' : -(discriminant R T P b delta epsilon a) * (R * T) ^ 3 = 0 := by exact_mod_cast h.symm
    have := (mul_eq_zero.1 h').resolve_right (pow_ne_zero 3 hRT)
    linarith
  · intro h0
    rw [h0] at h
    simp only [neg_zero, zero_mul, Complex.ofReal_zero] at h
    exact (mul_eq_zero.1 h).resolve_right hP2

/-- **C37.** Every pressure at which the discriminant vanishes is returned (`valid=True`), if the root finder finds
all roots. -/
theorem C37_zeros_complete (hRT : R * T ≠ 0) (hP : 0 < P) (roots : List ℂ)
    (hr : ∀ z, evalQ (quartic R T b delta epsilon a) z = 0 → z ∈ roots)
    (h : discriminant R T P b delta epsilon a = 0) : P ∈ validP roots := by
  have := hr _ ((C37_quartic hRT hP.ne').2 h)
  unfold validP
  rw [List.mem_map]
  refine ⟨(P : ℂ), List.mem_filter.2 ⟨this, ?_⟩, Complex.ofReal_re P⟩
  simp [hP.le]

/-- **C37.** What the filter keeps is a zero of the discriminant when the root is real; partial because complex roots
are kept too (next theorem). -/
theorem C37_zeros_sound_partial (hRT : R * T ≠ 0) {z : ℂ} (hz : evalQ (quartic R T b delta epsilon a) z = 0)
    (him : z.im = 0) (hre : 0 < z.re) : discriminant R T z.re b delta epsilon a = 0 := by
  refine (C37_quartic hRT hre.ne').1 ?_
  rw [show (z.re : ℂ) = z from Complex.ext (Complex.ofReal_re _) (by rw [Complex.ofReal_im, him])]
  exact hz

/-- **C37.** For the Peng-Robinson constants (`b = 1`, `RT = 1`, `a = 4`: above the critical temperature) the quartic
has a complex root with a positive real part. The filter keeps its real part as a pressure although the discriminant is not
zero there. -/
theorem C37_zeros_fails : ∃ z : ℂ, evalQ (quartic 1 1 1 2 (-1) 4) z = 0
    ∧ (∀ roots : List ℂ, z ∈ roots → z.re ∈ validP roots)
    ∧ 0 < z.re ∧ discriminant 1 1 z.re 1 2 (-1) 4 ≠ 0 := by
  have hq : quartic 1 1 1 2 (-1) 4 = (-32, -192, 416, -96, 8) := by unfold quartic; norm_num
  have hcont : Continuous (fun x : ℝ => 4 * x ^ 4 + 24 * x ^ 3 - 52 * x ^ 2 + 12 * x - 1) := by fun_prop
  obtain ⟨r, hr, hr0⟩ := intermediate_value_Icc (by norm_num : (1.48 : ℝ) ≤ 1.49) hcont.continuousOn
    (show (0 : ℝ) ∈ Set.Icc _ _ from ⟨by norm_num, by norm_num⟩)
  obtain ⟨s, hs, hs0⟩ := intermediate_value_Icc' (by norm_num : (-7.74 : ℝ) ≤ -7.73) hcont.continuousOn
    (show (0 : ℝ) ∈ Set.Icc _ _ from ⟨by norm_num, by norm_num⟩)
  simp only at hr0 hs0
  obtain ⟨hr1, hr2⟩ := hr
  obtain ⟨hs1, hs2⟩ := hs
  -- the remaining quadratic factor `x² + p x + t`
  set p := 6 + r + s with hp
  set t := -13 + (r + s) * p - r * s with ht
  -- the divided difference of the quartic
  have hdd : 4 * (r ^ 3 + r ^ 2 * s + r * s ^ 2 + s ^ 3) + 24 * (r ^ 2 + r * s + s ^ 2) - 52 * (r + s) + 12 = 0 := by
    have hrs : r - s ≠ 0 := by intro h; linarith
    refine mul_left_cancel₀ hrs ?_
    linear_combination hr0 - hs0
  have hfac : ∀ x : ℂ, 4 * x ^ 4 + 24 * x ^ 3 - 52 * x ^ 2 + 12 * x - 1
      = 4 * (x - r) * (x - s) * (x ^ 2 + p * x + t) := by
    intro x
    have h1 : (4 * (r ^ 3 + r ^ 2 * s + r * s ^ 2 + s ^ 3) + 24 * (r ^ 2 + r * s + s ^ 2) - 52 * (r + s) + 12 : ℂ) = 0 := by
      exact_mod_cast hdd
    have h2 : (4 * r ^ 4 + 24 * r ^ 3 - 52 * r ^ 2 + 12 * r - 1 : ℂ) = 0 := by exact_mod_cast hr0
    rw [ht, hp]
    push_cast
    linear_combination (x - r) * h1 + h2
  have hp1 : p ≤ -0.24 + 0.01 := by rw [hp]; linarith
  have hp2 : -0.26 ≤ p := by rw [hp]; linarith
  have htrs : 4 * t * (r * s) = -1 := by
    have := hfac 0
    have h3 : (4 * t * (r * s) : ℂ) = -1 := by linear_combination -this
    exact_mod_cast h3
  have htpos : 0.02 < t := by
    have hrs : r * s < 0 := by nlinarith
    have : -12 < r * s := by nlinarith
    nlinarith
  have hdneg : 0 < 4 * t - p ^ 2 := by nlinarith
  set z : ℂ := ⟨-p / 2, √(4 * t - p ^ 2) / 2⟩ with hz
  have hzroot : z ^ 2 + p * z + t = 0 := by
    have hsq := Real.sq_sqrt hdneg.le
    apply Complex.ext
    · rw [pow_two, pow_two] at hsq
      simp [hz, pow_two]
      linear_combination hsq * (-1 / 4)
    · simp [hz, pow_two]
      ring
  have hzre : z.re = -p / 2 := rfl
  refine ⟨z, ?_, ?_, ?_, ?_⟩
  · rw [hq]
    unfold evalQ
    have := hfac z
    rw [hzroot, mul_zero] at this
    push_cast
    linear_combination -8 * this
  · intro roots hm
    unfold validP
    rw [List.mem_map]
    refine ⟨z, List.mem_filter.2 ⟨hm, ?_⟩, rfl⟩
    rw [decide_eq_true_eq, hzre]
    linarith
  · rw [hzre]; linarith
  · rw [hzre]
    have hpos : 0 < -p / 2 := by linarith
    rw [Ne, ← C37_quartic (by norm_num) hpos.ne', hq]
    unfold evalQ
    have := hfac ((-p / 2 : ℝ) : ℂ)
    intro h0
    have h4 : 4 * (-p / 2 - r) * (-p / 2 - s) * ((-p / 2) ^ 2 + p * (-p / 2) + t) = 0 := by
      have : (4 * ((-p / 2 : ℝ) - r) * ((-p / 2 : ℝ) - s) * ((-p / 2 : ℝ) ^ 2 + p * (-p / 2 : ℝ) + t) : ℂ) = 0 := by
        rw [← this]
        push_cast at h0 ⊢
        linear_combination h0 * (-1 / 8)
      exact_mod_cast this
    have a1 : -p / 2 - r < 0 := by linarith
    have a2 : 0 < -p / 2 - s := by linarith
    have a3 : 0 < (-p / 2) ^ 2 + p * (-p / 2) + t := by nlinarith
    have := mul_ne_zero (mul_ne_zero (mul_ne_zero (by norm_num : (4 : ℝ) ≠ 0) a1.ne) a2.ne') a3.ne'
    exact this h4

/-- **C37.** The residual of the iterative pressure solver is the discriminant and its slope the derivative. -/
theorem C37_zero_newton (hRT : R * T ≠ 0) :
    zeroErr R T b delta epsilon a P = discriminant R T P b delta epsilon a
    ∧ HasDerivAt (fun p => discriminant R T p b delta epsilon a) (zeroSlope R T b delta epsilon a P) P := by
  have he : ∀ p, discriminant R T p b delta epsilon a = zeroErr R T b delta epsilon a p := by
    intro p
    unfold zeroErr discriminant
    dsimp only
    generalize R * T = x at *
    field_simp
    ring
  refine ⟨(he P).symm, ?_⟩
  simp only [he]
  unfold zeroErr zeroSlope
  dsimp only
  generalize R * T = x at *
  have hexp : (fun p : ℝ => -(p * p) * (-18 * p * ((a - delta * (p * b + x) + p * epsilon) * (a * b + epsilon * (p * b + x))
      * (-p * delta + (p * b + x))) + 4 * (p * ((a - delta * (p * b + x) + p * epsilon)
      * ((a - delta * (p * b + x) + p * epsilon) * (a - delta * (p * b + x) + p * epsilon)))
      + (a * b + epsilon * (p * b + x)) * ((-p * delta + (p * b + x)) * ((-p * delta + (p * b + x))
      * (-p * delta + (p * b + x))))) + p * p * (27 * (a * b + epsilon * (p * b + x)) * (a * b + epsilon * (p * b + x)))
      - (a - delta * (p * b + x) + p * epsilon) * (a - delta * (p * b + x) + p * epsilon)
      * ((-p * delta + (p * b + x)) * (-p * delta + (p * b + x)))) * (1 / x ^ 6))
      = fun p : ℝ => -(p * p) * (-18 * p * ((a - delta * (p * b + x) + p * epsilon) * (a * b + epsilon * (p * b + x))
      * (p * (b - delta) + x)) + 4 * (p * (a - delta * (p * b + x) + p * epsilon) ^ 3
      + (a * b + epsilon * (p * b + x)) * (p * (b - delta) + x) ^ 3) + p * p * (27 * (a * b + epsilon * (p * b + x)) ^ 2)
      - (a - delta * (p * b + x) + p * epsilon) ^ 2 * (p * (b - delta) + x) ^ 2) * (1 / x ^ 6) := by
    funext p; ring
  rw [hexp]
  have i := hasDerivAt_id' P
  have h2 : HasDerivAt (fun p => p * b + x) b P := ((i.mul_const b).add_const x).congr_deriv (by ring)
  have h3 : HasDerivAt (fun p => a - delta * (p * b + x) + p * epsilon) (-(delta * b) + epsilon) P :=
    (((h2.const_mul delta).const_sub a).fun_add (i.mul_const epsilon)).congr_deriv (by ring)
  have h5 : HasDerivAt (fun p => a * b + epsilon * (p * b + x)) (epsilon * b) P := (h2.const_mul epsilon).const_add _
  have h7 : HasDerivAt (fun p => p * (b - delta) + x) (b - delta) P :=
    ((i.mul_const (b - delta)).add_const x).congr_deriv (by ring)
  have k1 := (i.const_mul (-18 : ℝ)).fun_mul ((h3.fun_mul h5).fun_mul h7)
  have k2 := ((i.fun_mul (h3.fun_pow 3)).fun_add (h5.fun_mul (h7.fun_pow 3))).const_mul (4 : ℝ)
  have k3 := (i.fun_mul i).fun_mul ((h5.fun_pow 2).const_mul (27 : ℝ))
  have k4 := (h3.fun_pow 2).fun_mul (h7.fun_pow 2)
  have k := ((i.fun_mul i).fun_neg.fun_mul (((k1.fun_add k2).fun_add k3).fun_sub k4)).mul_const (1 / x ^ 6)
  refine k.congr_deriv ?_
  ring

/-! ### Van der Waals and Redlich-Kwong -/

/-- **C37.** The cubics of `VDW.T_discriminant_zeros_analytical` and `VDW.P_discriminant_zeros_analytical` vanish at
a real positive value exactly if the discriminant does. -/
theorem C37_VDW (hR : 0 < R) (hT : 0 < T) (hP : 0 < P) (ha : a ≠ 0) :
    (vdwCubicT R P a b T = 0 ↔ discriminant R T P b 0 0 a = 0)
    ∧ (vdwCubicP R T a b P = 0 ↔ discriminant R T P b 0 0 a = 0) := by
  have e1 : vdwCubicT R P a b T = ((-(discriminant R T P b 0 0 a) * ((R * T) ^ 6 / (P ^ 2 * a * R ^ 3)) : ℝ) : ℂ) := by
    unfold vdwCubicT discriminant
    dsimp only
    simp only [← Complex.ofReal_pow, ← Complex.ofReal_mul, ← Complex.ofReal_add]
    refine congrArg Complex.ofReal ?_
    field_simp
    ring
  have e2 : vdwCubicP R T a b P = ((-(discriminant R T P b 0 0 a) * ((R * T) ^ 3 / (P ^ 2 * a)) : ℝ) : ℂ) := by
    unfold vdwCubicP discriminant
    dsimp only
    simp only [← Complex.ofReal_pow, ← Complex.ofReal_mul, ← Complex.ofReal_add]
    refine congrArg Complex.ofReal ?_
    field_simp
    ring
  constructor
  · rw [e1, Complex.ofReal_eq_zero, mul_eq_zero, neg_eq_zero]
    exact or_iff_left (by positivity)
  · rw [e2, Complex.ofReal_eq_zero, mul_eq_zero, neg_eq_zero]
    exact or_iff_left (by positivity)

/-- The hypotheses of `C37_VDW` are met at the van der Waals critical point, where the discriminant vanishes. -/
example : vdwCubicT 1 (1 / 27) 1 1 ((8 / 27 : ℝ) : ℂ) = 0 :=
  (C37_VDW (by norm_num) (by norm_num) (by norm_num) (by norm_num)).1.2 (by unfold discriminant; norm_num)

/-- **C37.** `VDW.P_discriminant_zeros_analytical` ignores `valid`, and `P_discriminant_zeros` (4050) calls the
general routine even for `VDW`, whose quartic then has a zero leading coefficient. -/
theorem C37_VDW_leading_zero : (quartic R T b 0 0 a).1 = 0 := by
  unfold quartic
  simp

theorem rk_real (hR : R ≠ 0) {y : ℝ} (hy : y ≠ 0) : rkPoly R P a b y
    = ((discriminant R (y ^ 2) P b b 0 (a / y) * (y ^ 12 * y ^ 3) : ℝ) : ℂ) := by
  unfold rkPoly discriminant
  dsimp only
  simp only [← Complex.ofReal_pow, ← Complex.ofReal_mul, ← Complex.ofReal_add]
  refine congrArg Complex.ofReal ?_
  field_simp
  ring

/-- For a negative `√T` the polynomial does not vanish. -/
theorem rk_neg (hR : 0 < R) (hP : 0 < P) (ha : 0 < a) (hb : 0 < b) {y : ℝ} (hy : y < 0) : rkPoly R P a b y ≠ 0 := by
  rw [rk_real hR.ne' hy.ne, Ne, Complex.ofReal_eq_zero]
  have hy2 : 0 < y ^ 2 := by have := hy.ne; positivity
  have hA : 0 < -(a / y) := by
    rw [← div_neg]; exact div_pos ha (by linarith)
  set A := -(a / y) with hAd
  have haA : a / y = -A := by rw [hAd]; ring
  rw [haA]
  have hx : 0 < R * y ^ 2 := by positivity
  have hpos : 0 < discriminant R (y ^ 2) P b b 0 (-A) := by
    unfold discriminant
    dsimp only
    generalize R * y ^ 2 = x at *
    refine div_pos (mul_pos (by positivity) ?_) (by positivity)
    have h1 : 0 ≤ P * ((A - 2 * (P * b ^ 2)) ^ 2 * (4 * A + P * b ^ 2)) := by positivity
    have h2 : 0 < 18 * P * A * b * x * (A + b * (P * b + x)) + 4 * A * b * x ^ 3 + x ^ 2 * (A + b * (P * b + x)) ^ 2
      + 4 * P * (3 * (A + P * b ^ 2) ^ 2 * (b * x) + 3 * (A + P * b ^ 2) * (b * x) ^ 2 + (b * x) ^ 3) := by positivity
    nlinarith [h1, h2]
  have : y ^ 12 * y ^ 3 ≠ 0 := by have := hy.ne; positivity
  exact mul_ne_zero hpos.ne' this

/-- **C37.** `RK.T_discriminant_zeros_analytical(valid=True)`: the returned temperatures are exactly the positive
temperatures at which the discriminant vanishes, with the attraction `a/√T`, if the root finder returns exactly the
roots of the polynomial. -/
theorem C37_RK (hR : 0 < R) (hP : 0 < P) (ha : 0 < a) (hb : 0 < b) (roots : List ℂ)
    (hr : ∀ y, y ∈ roots ↔ rkPoly R P a b y = 0) :
    T ∈ validT (roots.map fun y => y * y) ↔ 0 < T ∧ discriminant R T P b b 0 (a / √T) = 0 := by
  have h0 : rkPoly R P a b 0 ≠ 0 := by
    unfold rkPoly
    have : -4 * (a * a) * a * (P * P * P) * ((1 / R * (1 / R) * (1 / R * (1 / R)) * (1 / R * (1 / R)))) ≠ 0 := by
      have : 0 < 4 * (a * a) * a * (P * P * P) * ((1 / R * (1 / R) * (1 / R * (1 / R)) * (1 / R * (1 / R)))) := by
        positivity
      intro h; linarith
    have h' := Complex.ofReal_ne_zero.2 this
    simpa using h'
  unfold validT
  simp only [List.mem_map, List.mem_filter, decide_eq_true_eq]
  constructor
  · rintro ⟨_, ⟨⟨y, hy, rfl⟩, hre, him⟩, rfl⟩
    have hy0 := (hr y).1 hy
    simp only [Complex.mul_re, Complex.mul_im] at hre him ⊢
    have hyim : y.im = 0 := by
      have h1 : y.re * y.im = 0 := by linarith
      rcases mul_eq_zero.1 h1 with h | h
      · rw [h] at hre
        have : y.im * y.im ≤ 0 := by linarith
        nlinarith [mul_self_nonneg y.im]
      · exact h
    have hyr : y = (y.re : ℂ) := Complex.ext (Complex.ofReal_re _).symm (by rw [hyim, Complex.ofReal_im])
    have hne : y.re ≠ 0 := by
      intro h; apply h0; rw [hyr, h] at hy0; simpa using hy0
    have hpos : 0 < y.re := by
      rcases lt_or_gt_of_ne hne with h | h
      · exact absurd (hyr ▸ hy0) (rk_neg hR hP ha hb h)
      · exact h
    rw [hyim, mul_zero, sub_zero]
    refine ⟨by positivity, ?_⟩
    rw [Real.sqrt_mul_self hpos.le, ← pow_two]
    rw [hyr, rk_real hR.ne' hne, Complex.ofReal_eq_zero] at hy0
    exact (mul_eq_zero.1 hy0).resolve_right (by positivity)
  · rintro ⟨hT, hd⟩
    have hs : 0 < √T := Real.sqrt_pos.2 hT
    have hss : √T * √T = T := Real.mul_self_sqrt hT.le
    refine ⟨((√T : ℝ) : ℂ) * ((√T : ℝ) : ℂ), ⟨⟨_, (hr _).2 ?_, rfl⟩, ?_⟩, ?_⟩
    · rw [rk_real hR.ne' hs.ne', pow_two, hss, hd, zero_mul, Complex.ofReal_zero]
    · rw [← Complex.ofReal_mul, hss]
      exact ⟨by simpa using hT.le, by simp⟩
    · rw [← Complex.ofReal_mul, hss, Complex.ofReal_re]

/-- The hypotheses of `C37_RK` are met: the polynomial is not zero, so it has finitely many roots. -/
example : rkPoly 1 1 1 1 (-1) ≠ 0 := by
  have := rk_neg (R := 1) (P := 1) (a := 1) (b := 1) (y := -1) one_pos one_pos one_pos one_pos (by norm_num)
  simpa using this

end

end Verif.Discriminant
