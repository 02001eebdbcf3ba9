import Mathlib.Analysis.SpecialFunctions.Pow.Real
import Verif.Util.Deriv
import Mathlib.Analysis.Calculus.Deriv.Mul
import Mathlib.Tactic.LinearCombination
import Mathlib.Tactic.FieldSimp
import Mathlib.Tactic.Positivity

/-!
# C34, C35: temperature from pressure and volume; the largest pressure at a volume

`thermo/eos.py`: `solve_T` of `IG` (7267-7292), `PR` (7686-7831), `VDW` (9247-9272), `SRK` (9954-10048), the residuals
of `PRSV.solve_T` (8682-8697), `PRSV2.solve_T` (8950-8960), `APISRK.solve_T` (10698-10712) and `GCEOS.solve_T` (1653-1671);
`P_max_at_V` of `PR` (7672-7680), `SRK` (9943-9951), `APISRK` (10722-10726) and of the subclasses that inherit them.

Reals instead of floats. A square root of a negative number is `none` (`PR` uses `math.sqrt`, which raises; `SRK`
raises when the imaginary part of the result exceeds 1e-12). The iterative solvers are not modelled; `PR` falls back
on one, given here as a parameter.
-/

namespace Verif.SolveT

noncomputable section

variable {R Tc a b m P V T : ℝ}

/-! ### The specification -/

/-- Pressure of a cubic equation. -/
def pressure (R T b delta epsilon aalpha V : ℝ) : ℝ := R * T / (V - b) - aalpha / (V ^ 2 + delta * V + epsilon)

/-- Soave's attraction with a constant slope. -/
def soave (a Tc m T : ℝ) : ℝ := a * (1 + m * (1 - √(T / Tc))) ^ 2

/-! ### The code -/

/-- `SRK.solve_T` (10011-10048); `none` for the complex result. -/
def srkSolveT (R Tc a b m P V : ℝ) : Option ℝ :=
  let x0 := R * Tc
  let x1 := V * b
  let x2 := x0 * x1
  let x3 := V * V
  let x4 := x0 * x3
  let x5 := m * m
  let x6 := a * x5
  let x7 := b * x6
  let x8 := V * x6
  let x9 := (x2 + x4 + x7 - x8) ^ 2
  let x10 := x3 * x3
  let x11 := R * R * Tc * Tc
  let x12 := a * a
  let x13 := x5 * x5
  let x14 := x12 * x13
  let x15 := b * b
  let x16 := x3 * V
  let x17 := a * x0
  let x18 := x17 * x5
  let x19 := 2 * b * x16
  let x20 := -2 * V * b * x14 + 2 * V * x15 * x18 + x10 * x11 + x11 * x15 * x3 + x11 * x19 + x14 * x15 + x14 * x3
    - 2 * x16 * x18
  let x21 := V - b
  let x22 := 2 * m * x17
  let x23 := P * x4
  let x24 := P * x8
  let x25 := x1 * x17
  let x26 := P * R * Tc
  let x27 := x17 * x3
  let x28 := V * x12
  let x29 := 2 * m * m * m
  let x30 := b * x12
  let rad := V * x21 * x21 * x21 * (V + b) * (P * x2 + P * x7 + x17 + x18 + x22 + x23 - x24)
  if rad < 0 then none else
  some (-Tc * (2 * a * m * x9 * √rad * (m + 1) - x20 * x21 * (-P * x16 * x6 + x1 * x22 + x10 * x26 + x13 * x28
    - x13 * x30 + x15 * x23 + x15 * x24 + x19 * x26 + x22 * x3 + x25 * x5 + x25 + x27 * x5 + x27 + x28 * x29
    + x28 * x5 - x29 * x30 - x30 * x5)) / (x20 * x9))

/-- The two closed-form values of `PR.solve_T` (7733-7807): `T_calc` and `T_calc_high`. -/
def prClosed (R Tc a b kappa P V : ℝ) : Option (ℝ × ℝ) :=
  let x0 := V * V
  let x1 := R * Tc
  let x2 := x0 * x1
  let x3 := kappa * kappa
  let x4 := a * x3
  let x5 := b * x4
  let x6 := 2 * V * b
  let x7 := x1 * x6
  let x8 := b * b
  let x9 := x1 * x8
  let x10 := V * x4
  let thing := x2 - x10 + x5 + x7 - x9
  let x11 := thing * thing
  let x12 := x0 * x0
  let x13 := R * R
  let x14 := Tc * Tc
  let x15 := x13 * x14
  let x16 := x8 * x8
  let x17 := a * a
  let x18 := x3 * x3
  let x19 := x17 * x18
  let x20 := x0 * V
  let x21 := 2 * R * Tc * a * x3
  let x22 := x8 * b
  let x23 := 4 * V * x22
  let x24 := 4 * b * x20
  let x25 := a * x1
  let x26 := x25 * x8
  let x27 := x26 * x3
  let x28 := x0 * x25
  let x29 := x28 * x3
  let x30 := 2 * x8
  let x31 := 6 * V * x27 - 2 * b * x29 + x0 * x13 * x14 * x30 + x0 * x19 + x12 * x15 + x15 * x16 - x15 * x23
    + x15 * x24 - x19 * x6 + x19 * x8 - x20 * x21 - x21 * x22
  let V_m_b := V - b
  let x33 := 2 * (R * Tc * a * kappa)
  let x34 := P * x2
  let x35 := P * x5
  let x36 := x25 * x3
  let x37 := P * x10
  let x38 := P * R * Tc
  let x39 := V * x17
  let x40 := 2 * kappa * x3
  let x41 := b * x17
  let x42 := P * a * x3
  let rad := V_m_b ^ 3 * (x0 + x6 - x8) * (P * x7 - P * x9 + x25 + x33 + x34 + x35 + x36 - x37)
  if rad < 0 then none else
  let root_term := √rad
  let x100 := 2 * a * kappa * x11 * (root_term * (kappa + 1))
  let x101 := x31 * V_m_b * (4 * V * (R * Tc * a * b * kappa) + x0 * x33 - x0 * x35 + x12 * x38 + x16 * x38
    + x18 * x39 - x18 * x41 - x20 * x42 - x22 * x42 - x23 * x38 + x24 * x38 + x25 * x6 - x26 - x27 + x28 + x29
    + x3 * x39 - x3 * x41 + x30 * x34 - x33 * x8 + x36 * x6 + 3 * x37 * x8 + x39 * x40 - x40 * x41)
  let x102 := -Tc / (x11 * x31)
  some (x102 * (x100 - x101), x102 * (-x100 - x101))

/-- The residual and its derivative in `PR.solve_T` (7811-7831). -/
def prErr (R Tc a b kappa P V T : ℝ) : ℝ :=
  let c1 := R / (V - b)
  let c2 := a / (V * (V + b) + b * (V - b))
  let rt := √(T * (1 / Tc))
  let alpha_root := 1 + kappa * (1 - rt)
  c1 * T - alpha_root * alpha_root * c2 - P
@[inherit_doc prErr] def prDerr (R Tc a b kappa V T : ℝ) : ℝ :=
  let c1 := R / (V - b)
  let c2 := a / (V * (V + b) + b * (V - b))
  let rt := √(T * (1 / Tc))
  c1 + c2 * kappa * rt * (kappa * (1 - rt) + 1) / T

/-- `PR.solve_T` (7733-7831): the fallback `generic` is `GCEOS.solve_T`; `gas` is `solution == 'g'`. A division by
zero is `none`. -/
def prSolveT (generic : Option ℝ) (gas : Bool) (R Tc a b kappa P V : ℝ) : Option ℝ :=
  match prClosed R Tc a b kappa P V with
  | none => none
  | some (lo, hi) =>
    if lo < 0 then generic else
    let T_calc := if gas then hi else lo
    let err := prErr R Tc a b kappa P V T_calc
    if 1e-2 < |err / P| then generic else
    if T_calc = 0 then none else
    let derr := prDerr R Tc a b kappa V T_calc
    if derr = 0 then some T_calc else
    let T1 := T_calc - err / derr
    if T1 = 0 then none else
    let err := prErr R Tc a b kappa P V T1
    let derr := prDerr R Tc a b kappa V T1
    if derr = 0 then none else
    some (T1 - err / derr)

/-- `VDW.solve_T` (9272). -/
def vdwSolveT (R a b P V : ℝ) : ℝ := (P * V ^ 2 * (V - b) + V * a - a * b) / (R * V ^ 2)
/-- `IG.solve_T` (7292). -/
def igSolveT (R P V : ℝ) : ℝ := P * V * (1 / R)

/-- `SRK.P_max_at_V` (9943-9951). -/
def srkPmax (R Tc a b m V : ℝ) : Option ℝ :=
  let P_max := -R * Tc * a * (m ^ 2 + 2 * m + 1) / (R * Tc * V ^ 2 + R * Tc * V * b - V * a * m ^ 2 + a * b * m ^ 2)
  if P_max < 0 then none else some P_max
/-- `PR.P_max_at_V` (7672-7680). -/
def prPmax (R Tc a b kappa V : ℝ) : Option ℝ :=
  let P_max := -R * Tc * a * (kappa ^ 2 + 2 * kappa + 1)
    / (R * Tc * V ^ 2 + 2 * R * Tc * V * b - R * Tc * b ^ 2 - V * a * kappa ^ 2 + a * b * kappa ^ 2)
  if P_max < 0 then none else some P_max

/-! ### The isochore as a quadratic in `√Tr` -/

/-- The pressure along an isochore with repulsion volume `v` and attraction denominator `w`, in `y = √(T/Tc)`. -/
def iso (R Tc a m v w y : ℝ) : ℝ := R * (Tc * y ^ 2) / v - a * (1 + m * (1 - y)) ^ 2 / w

/-- Its leading coefficient, scaled by `v w`. -/
def lead (R Tc a m v w : ℝ) : ℝ := R * Tc * w - a * m ^ 2 * v
/-- The discriminant of the quadratic, scaled. -/
def disc (R Tc a m P v w : ℝ) : ℝ := w * v * (P * lead R Tc a m v w + R * Tc * a * (1 + m) ^ 2)

theorem iso_eq {v w y : ℝ} (hv : 0 < v) (hw : 0 < w) : iso R Tc a m v w y = P ↔
    lead R Tc a m v w * y ^ 2 + 2 * (a * m * (1 + m) * v) * y - (a * (1 + m) ^ 2 * v + P * w * v) = 0 := by
  unfold iso lead
  rw [sub_eq_iff_eq_add, div_eq_iff hv.ne', add_mul]
  constructor
  · intro h
    field_simp at h
    linear_combination h
  · intro h
    field_simp
    linear_combination h

/-- The quadratic, completed to a square. -/
theorem square {v w y : ℝ}
    (h : lead R Tc a m v w * y ^ 2 + 2 * (a * m * (1 + m) * v) * y - (a * (1 + m) ^ 2 * v + P * w * v) = 0) :
    (lead R Tc a m v w * y + a * m * (1 + m) * v) ^ 2 = disc R Tc a m P v w := by
  unfold disc
  have e : R * Tc * w = lead R Tc a m v w + a * m ^ 2 * v := by unfold lead; ring
  generalize lead R Tc a m v w = D at *
  linear_combination D * h - v * a * (1 + m) ^ 2 * e

theorem of_square {v w y : ℝ} (hD : lead R Tc a m v w ≠ 0)
    (h : (lead R Tc a m v w * y + a * m * (1 + m) * v) ^ 2 = disc R Tc a m P v w) :
    lead R Tc a m v w * y ^ 2 + 2 * (a * m * (1 + m) * v) * y - (a * (1 + m) ^ 2 * v + P * w * v) = 0 := by
  unfold disc at h
  have e : R * Tc * w = lead R Tc a m v w + a * m ^ 2 * v := by unfold lead; ring
  generalize lead R Tc a m v w = D at *
  have : D * (D * y ^ 2 + 2 * (a * m * (1 + m) * v) * y - (a * (1 + m) ^ 2 * v + P * w * v)) = 0 := by
    linear_combination h + v * a * (1 + m) ^ 2 * e
  exact (mul_eq_zero.1 this).resolve_left hD

/-- The branch chosen by the code, in `y`. -/
def yLow (R Tc a m P v w : ℝ) : ℝ :=
  (-(a * m * (1 + m) * v) + √(disc R Tc a m P v w)) / lead R Tc a m v w
/-- The other branch. -/
def yHigh (R Tc a m P v w : ℝ) : ℝ :=
  (-(a * m * (1 + m) * v) - √(disc R Tc a m P v w)) / lead R Tc a m v w

theorem iso_yLow {v w : ℝ} (hv : 0 < v) (hw : 0 < w) (hD : lead R Tc a m v w ≠ 0) (hS : 0 ≤ disc R Tc a m P v w) :
    iso R Tc a m v w (yLow R Tc a m P v w) = P := by
  refine (iso_eq hv hw).2 (of_square hD ?_)
  unfold yLow
  rw [mul_div_cancel₀ _ hD]
  rw [show ∀ x q : ℝ, -x + q + x = q from fun x q => by ring, Real.sq_sqrt hS]

theorem iso_yHigh {v w : ℝ} (hv : 0 < v) (hw : 0 < w) (hD : lead R Tc a m v w ≠ 0) (hS : 0 ≤ disc R Tc a m P v w) :
    iso R Tc a m v w (yHigh R Tc a m P v w) = P := by
  refine (iso_eq hv hw).2 (of_square hD ?_)
  unfold yHigh
  rw [mul_div_cancel₀ _ hD]
  rw [show ∀ x q : ℝ, (-x - q + x) ^ 2 = q ^ 2 from fun x q => by ring, Real.sq_sqrt hS]

/-- The chosen branch is non-negative unless `m` is between -1 and 0 and the leading coefficient negative. -/
theorem yLow_nonneg {v w : ℝ} (hv : 0 < v) (hw : 0 < w) (ha : 0 ≤ a) (hP : 0 ≤ P)
    (hm : 0 ≤ m * (1 + m) ∨ 0 < lead R Tc a m v w) (hD : lead R Tc a m v w ≠ 0) :
    0 ≤ yLow R Tc a m P v w := by
  have key : disc R Tc a m P v w = (a * m * (1 + m) * v) ^ 2
      + lead R Tc a m v w * (a * (1 + m) ^ 2 * v + P * w * v) := by unfold disc lead; ring
  have hc : 0 ≤ a * (1 + m) ^ 2 * v + P * w * v := by positivity
  rcases lt_or_gt_of_ne hD with hneg | hpos
  · have hm' := hm.resolve_right (not_lt.2 hneg.le)
    have hx : 0 ≤ a * m * (1 + m) * v := by
      have : a * m * (1 + m) * v = a * v * (m * (1 + m)) := by ring
      rw [this]; positivity
    unfold yLow
    refine div_nonneg_of_nonpos ?_ hneg.le
    have : √(disc R Tc a m P v w) ≤ a * m * (1 + m) * v := by
      rw [Real.sqrt_le_left hx, key]
      nlinarith
    linarith
  · unfold yLow
    refine div_nonneg ?_ hpos.le
    have : |a * m * (1 + m) * v| ≤ √(disc R Tc a m P v w) := by
      refine Real.abs_le_sqrt ?_
      rw [key]
      nlinarith [mul_nonneg hpos.le hc]
    have := le_abs_self (a * m * (1 + m) * v)
    linarith

theorem yLow_pos {v w : ℝ} (hv : 0 < v) (hw : 0 < w) (ha : 0 ≤ a) (hP : 0 < P)
    (hm : 0 ≤ m * (1 + m) ∨ 0 < lead R Tc a m v w) (hD : lead R Tc a m v w ≠ 0)
    (hS : 0 ≤ disc R Tc a m P v w) : 0 < yLow R Tc a m P v w := by
  refine lt_of_le_of_ne (yLow_nonneg hv hw ha hP.le hm hD) ?_
  intro h
  have e := (iso_eq hv hw).1 (iso_yLow hv hw hD hS)
  rw [← h] at e
  have : 0 < a * (1 + m) ^ 2 * v + P * w * v := by positivity
  nlinarith

/-- `√(T/Tc)` at `T = Tc y²`. -/
theorem sqrt_sq_div (hTc : 0 < Tc) {y : ℝ} (hy : 0 ≤ y) : √(Tc * y ^ 2 / Tc) = y := by
  rw [mul_div_cancel_left₀ _ hTc.ne', Real.sqrt_sq hy]

theorem pressure_iso {delta epsilon : ℝ} (hTc : 0 < Tc) {y : ℝ} (hy : 0 ≤ y) :
    pressure R (Tc * y ^ 2) b delta epsilon (soave a Tc m (Tc * y ^ 2)) V
      = iso R Tc a m (V - b) (V ^ 2 + delta * V + epsilon) y := by
  unfold pressure soave iso
  rw [sqrt_sq_div hTc hy]

/-! ### SRK -/

/-- The expression of `SRK.solve_T` is the temperature of the branch `yLow`. -/
theorem srk_closed (hV : b < V) (hw : 0 < V ^ 2 + b * V) (hD : lead R Tc a m (V - b) (V ^ 2 + b * V) ≠ 0)
    (hS : 0 ≤ disc R Tc a m P (V - b) (V ^ 2 + b * V)) :
    srkSolveT R Tc a b m P V = some (Tc * yLow R Tc a m P (V - b) (V ^ 2 + b * V) ^ 2) := by
  have hv : 0 < V - b := sub_pos.2 hV
  unfold srkSolveT
  dsimp only
  have hrad : V * (V - b) * (V - b) * (V - b) * (V + b) * (P * (R * Tc * (V * b)) + P * (b * (a * (m * m)))
      + a * (R * Tc) + a * (R * Tc) * (m * m) + 2 * m * (a * (R * Tc)) + P * (R * Tc * (V * V))
      - P * (V * (a * (m * m)))) = (V - b) ^ 2 * disc R Tc a m P (V - b) (V ^ 2 + b * V) := by
    unfold disc lead; ring
  rw [hrad, if_neg (not_lt.2 (by positivity)), Real.sqrt_mul (by positivity), Real.sqrt_sq hv.le]
  congr 1
  unfold yLow
  have hq := Real.sq_sqrt hS
  generalize √(disc R Tc a m P (V - b) (V ^ 2 + b * V)) = q at *
  have e1 : (R * Tc * (V * b) + R * Tc * (V * V) + b * (a * (m * m)) - V * (a * (m * m))) ^ 2
      = lead R Tc a m (V - b) (V ^ 2 + b * V) ^ 2 := by unfold lead; ring
  have e2 : -2 * V * b * (a * a * (m * m * (m * m))) + 2 * V * (b * b) * (a * (R * Tc) * (m * m))
      + V * V * (V * V) * (R * R * Tc * Tc) + R * R * Tc * Tc * (b * b) * (V * V)
      + R * R * Tc * Tc * (2 * b * (V * V * V)) + a * a * (m * m * (m * m)) * (b * b)
      + a * a * (m * m * (m * m)) * (V * V) - 2 * (V * V * V) * (a * (R * Tc) * (m * m))
      = lead R Tc a m (V - b) (V ^ 2 + b * V) ^ 2 := by unfold lead; ring
  rw [e1, e2]
  rw [div_eq_iff (by positivity), div_pow]
  have hD2 : lead R Tc a m (V - b) (V ^ 2 + b * V) ^ 2 ≠ 0 := pow_ne_zero _ hD
  have e3 : Tc * ((-(a * m * (1 + m) * (V - b)) + q) ^ 2 / lead R Tc a m (V - b) (V ^ 2 + b * V) ^ 2)
      * (lead R Tc a m (V - b) (V ^ 2 + b * V) ^ 2 * lead R Tc a m (V - b) (V ^ 2 + b * V) ^ 2)
      = Tc * (-(a * m * (1 + m) * (V - b)) + q) ^ 2 * lead R Tc a m (V - b) (V ^ 2 + b * V) ^ 2 := by
    field_simp
  rw [e3]
  have hq' : q ^ 2 = (V ^ 2 + b * V) * (V - b) * (P * lead R Tc a m (V - b) (V ^ 2 + b * V)
    + R * Tc * a * (1 + m) ^ 2) := hq
  have : Tc * (-(a * m * (1 + m) * (V - b)) + q) ^ 2 = Tc * ((a * m * (1 + m) * (V - b)) ^ 2
    - 2 * (a * m * (1 + m) * (V - b)) * q + (V ^ 2 + b * V) * (V - b) * (P * lead R Tc a m (V - b) (V ^ 2 + b * V)
    + R * Tc * a * (1 + m) ^ 2)) := by rw [← hq']; ring
  rw [this]
  unfold lead
  ring

/-- **C34.** `SRK.solve_T` returns a temperature at which the equation has the given pressure, for `m` outside
`(-1, 0)` or a positive leading coefficient. -/
theorem C34_SRK (hTc : 0 < Tc) (ha : 0 ≤ a) (hb : 0 < b) (hV : b < V) (hP : 0 ≤ P)
    (hD : R * Tc * (V ^ 2 + b * V) - a * m ^ 2 * (V - b) ≠ 0)
    (hm : 0 ≤ m * (1 + m) ∨ 0 < R * Tc * (V ^ 2 + b * V) - a * m ^ 2 * (V - b))
    (h : srkSolveT R Tc a b m P V = some T) : 0 ≤ T ∧ pressure R T b b 0 (soave a Tc m T) V = P := by
  have hv : 0 < V - b := sub_pos.2 hV
  have hV0 : 0 < V := hb.trans hV
  have hw : 0 < V ^ 2 + b * V := by positivity
  have hS : 0 ≤ disc R Tc a m P (V - b) (V ^ 2 + b * V) := by
    by_contra hn
    unfold srkSolveT at h
    dsimp only at h
    have hrad : V * (V - b) * (V - b) * (V - b) * (V + b) * (P * (R * Tc * (V * b)) + P * (b * (a * (m * m)))
        + a * (R * Tc) + a * (R * Tc) * (m * m) + 2 * m * (a * (R * Tc)) + P * (R * Tc * (V * V))
        - P * (V * (a * (m * m)))) = (V - b) ^ 2 * disc R Tc a m P (V - b) (V ^ 2 + b * V) := by
      unfold disc lead; ring
    rw [hrad, if_pos (mul_neg_of_pos_of_neg (by positivity) (not_le.1 hn))] at h
    cases h
  rw [srk_closed hV hw hD hS] at h
  cases h
  have hy := yLow_nonneg (P := P) hv hw ha hP hm hD
  refine ⟨by positivity, ?_⟩
  rw [pressure_iso hTc hy, add_zero]
  exact iso_yLow hv hw hD hS

example : ∃ T, srkSolveT 8 500 2 (1 / 10000) 0.9 100000 (1 / 1000) = some T ∧ 0 ≤ T
    ∧ pressure 8 T (1 / 10000) (1 / 10000) 0 (soave 2 500 0.9 T) (1 / 1000) = 100000 := by
  have h := srk_closed (R := 8) (Tc := 500) (a := 2) (b := 1 / 10000) (m := 0.9) (P := 100000) (V := 1 / 1000)
    (by norm_num) (by norm_num) (by unfold lead; norm_num) (by unfold disc lead; norm_num)
  refine ⟨_, h, C34_SRK (by norm_num) (by norm_num) (by norm_num) (by norm_num) (by norm_num) (by norm_num)
    (.inl (by norm_num)) h⟩

/-- **C34.** If `SRK.solve_T` raises, no temperature has the given pressure at that volume. -/
theorem C34_SRK_none (hTc : 0 < Tc) (hb : 0 < b) (hV : b < V) (h : srkSolveT R Tc a b m P V = none) :
    ∀ T, 0 ≤ T → pressure R T b b 0 (soave a Tc m T) V ≠ P := by
  intro T hT he
  have hv : 0 < V - b := sub_pos.2 hV
  have hV0 : 0 < V := hb.trans hV
  have hw : 0 < V ^ 2 + b * V := by positivity
  have hy : 0 ≤ √(T / Tc) := Real.sqrt_nonneg _
  have hT' : T = Tc * √(T / Tc) ^ 2 := by rw [Real.sq_sqrt (by positivity)]; field_simp
  have h2 : iso R Tc a m (V - b) (V ^ 2 + b * V) √(T / Tc) = P := by
    rw [hT'] at he
    rw [pressure_iso hTc hy, add_zero] at he
    exact he
  have h3 := square ((iso_eq hv hw).1 h2)
  have hS : 0 ≤ disc R Tc a m P (V - b) (V ^ 2 + b * V) := by rw [← h3]; positivity
  unfold srkSolveT at h
  dsimp only at h
  have hrad : V * (V - b) * (V - b) * (V - b) * (V + b) * (P * (R * Tc * (V * b)) + P * (b * (a * (m * m)))
      + a * (R * Tc) + a * (R * Tc) * (m * m) + 2 * m * (a * (R * Tc)) + P * (R * Tc * (V * V))
      - P * (V * (a * (m * m)))) = (V - b) ^ 2 * disc R Tc a m P (V - b) (V ^ 2 + b * V) := by
    unfold disc lead; ring
  rw [hrad, if_neg (not_lt.2 (by positivity))] at h
  cases h

/-- The hypothesis of `C34_SRK_none` is met: a pressure above the maximum. -/
example : srkSolveT 1 1 1 1 3 100 2 = none := by
  unfold srkSolveT
  norm_num

/-- **C34.** The temperature returned by `SRK.solve_T` is the smallest one with that pressure (`m ≥ 0`, `P > 0`);
with a positive leading coefficient it is the only one. -/
theorem C34_SRK_least (hR : 0 < R) (hTc : 0 < Tc) (ha : 0 ≤ a) (hb : 0 < b) (hV : b < V) (hP : 0 < P)
    (hm : 0 ≤ m) (hD : R * Tc * (V ^ 2 + b * V) - a * m ^ 2 * (V - b) ≠ 0)
    (h : srkSolveT R Tc a b m P V = some T) {T' : ℝ} (hT' : 0 ≤ T')
    (h' : pressure R T' b b 0 (soave a Tc m T') V = P) :
    T ≤ T' ∧ (0 < R * Tc * (V ^ 2 + b * V) - a * m ^ 2 * (V - b) → T' = T) := by
  have hv : 0 < V - b := sub_pos.2 hV
  have hV0 : 0 < V := hb.trans hV
  have hw : 0 < V ^ 2 + b * V := by positivity
  set y' := √(T' / Tc) with hy'
  have hyn : 0 ≤ y' := Real.sqrt_nonneg _
  have eT : T' = Tc * y' ^ 2 := by rw [hy', Real.sq_sqrt (by positivity)]; field_simp
  have h2 : iso R Tc a m (V - b) (V ^ 2 + b * V) y' = P := by
    rw [eT] at h'
    rw [pressure_iso hTc hyn, add_zero] at h'
    exact h'
  have q' := (iso_eq hv hw).1 h2
  have hS : 0 ≤ disc R Tc a m P (V - b) (V ^ 2 + b * V) := by rw [← square q']; positivity
  rw [srk_closed hV hw hD hS] at h
  cases h
  have hmm : 0 ≤ m * (1 + m) := by positivity
  have hy := yLow_nonneg (P := P) hv hw ha hP.le (.inl hmm) hD
  have q := (iso_eq hv hw).1 (iso_yLow hv hw hD hS)
  have hD' : lead R Tc a m (V - b) (V ^ 2 + b * V) ≠ 0 := hD
  have hsq := square q'
  have hk : (lead R Tc a m (V - b) (V ^ 2 + b * V) * y' + a * m * (1 + m) * (V - b))
      = √(disc R Tc a m P (V - b) (V ^ 2 + b * V)) ∨
      (lead R Tc a m (V - b) (V ^ 2 + b * V) * y' + a * m * (1 + m) * (V - b))
      = -√(disc R Tc a m P (V - b) (V ^ 2 + b * V)) := by
    rw [← sq_eq_sq_iff_eq_or_eq_neg, Real.sq_sqrt hS]; exact hsq
  have hx : 0 ≤ a * m * (1 + m) * (V - b) := by positivity
  have hq0 : 0 ≤ √(disc R Tc a m P (V - b) (V ^ 2 + b * V)) := Real.sqrt_nonneg _
  have hyl : lead R Tc a m (V - b) (V ^ 2 + b * V) * yLow R Tc a m P (V - b) (V ^ 2 + b * V)
      = -(a * m * (1 + m) * (V - b)) + √(disc R Tc a m P (V - b) (V ^ 2 + b * V)) := by
    unfold yLow; rw [mul_div_cancel₀ _ hD']
  have hle : yLow R Tc a m P (V - b) (V ^ 2 + b * V) ≤ y' ∧
      (0 < lead R Tc a m (V - b) (V ^ 2 + b * V) → y' = yLow R Tc a m P (V - b) (V ^ 2 + b * V)) := by
    rcases hk with hk | hk
    · have : y' = yLow R Tc a m P (V - b) (V ^ 2 + b * V) := by
        refine mul_left_cancel₀ hD' ?_
        rw [hyl]; linarith
      exact ⟨this.ge, fun _ => this⟩
    · constructor
      · rcases lt_or_gt_of_ne hD' with hneg | hpos
        · refine (mul_le_mul_left_of_neg hneg).1 ?_
          rw [hyl]
          linarith
        · exfalso
          have h1 : 0 ≤ lead R Tc a m (V - b) (V ^ 2 + b * V) * y' := by positivity
          have hsz : √(disc R Tc a m P (V - b) (V ^ 2 + b * V)) = 0 := by linarith
          have h0 : lead R Tc a m (V - b) (V ^ 2 + b * V) * y' = 0 := by linarith
          have hy0 : y' = 0 := (mul_eq_zero.1 h0).resolve_left hD'
          rw [hy0] at q'
          have : 0 < a * (1 + m) ^ 2 * (V - b) + P * (V ^ 2 + b * V) * (V - b) := by positivity
          linarith
      · intro hpos
        exfalso
        have h1 : 0 ≤ lead R Tc a m (V - b) (V ^ 2 + b * V) * y' := by positivity
        have hsz : √(disc R Tc a m P (V - b) (V ^ 2 + b * V)) = 0 := by linarith
        have h0 : lead R Tc a m (V - b) (V ^ 2 + b * V) * y' = 0 := by linarith
        have hy0 : y' = 0 := (mul_eq_zero.1 h0).resolve_left hD'
        rw [hy0] at q'
        have : 0 < a * (1 + m) ^ 2 * (V - b) + P * (V ^ 2 + b * V) * (V - b) := by positivity
        linarith
  refine ⟨?_, fun hpos => ?_⟩
  · rw [eT]
    exact mul_le_mul_of_nonneg_left (pow_le_pow_left₀ hy hle.1 2) hTc.le
  · rw [eT, hle.2 hpos]

/-- **C34.** With `m` in `(-1, 0)` and a strong attraction the closed form of `SRK.solve_T` returns a temperature
with another pressure. -/
theorem C34_SRK_negative_m_fails : ∃ T, srkSolveT 1 1 100 1 (-1 / 2) 1 2 = some T
    ∧ pressure 1 T 1 1 0 (soave 100 1 (-1 / 2) T) 2 ≠ 1 := by
  have h := srk_closed (R := 1) (Tc := 1) (a := 100) (b := 1) (m := -1 / 2) (P := 1) (V := 2)
    (by norm_num) (by norm_num) (by unfold lead; norm_num) (by unfold disc lead; norm_num)
  refine ⟨_, h, ?_⟩
  set y := yLow 1 1 100 (-1 / 2) 1 (2 - 1) (2 ^ 2 + 1 * 2) with hy
  have hS : (0 : ℝ) ≤ disc 1 1 100 (-1 / 2) 1 (2 - 1) (2 ^ 2 + 1 * 2) := by unfold disc lead; norm_num
  have h1 := (iso_eq (R := 1) (Tc := 1) (a := 100) (m := -1 / 2) (P := 1) (v := 2 - 1) (w := 2 ^ 2 + 1 * 2)
    (y := y) (by norm_num) (by norm_num)).1 (iso_yLow (by norm_num) (by norm_num) (by unfold lead; norm_num) hS)
  have hneg : y < 0 := by
    rw [hy]
    unfold yLow
    refine div_neg_of_pos_of_neg ?_ (by unfold lead; norm_num)
    have := Real.sqrt_nonneg (disc 1 1 100 (-1 / 2) 1 (2 - 1) (2 ^ 2 + 1 * 2))
    linarith
  have e : pressure 1 (1 * y ^ 2) 1 1 0 (soave 100 1 (-1 / 2) (1 * y ^ 2)) 2
      = iso 1 1 100 (-1 / 2) (2 - 1) (2 ^ 2 + 1 * 2) (-y) := by
    have := pressure_iso (R := 1) (Tc := 1) (a := 100) (m := -1 / 2) (b := 1) (V := 2) (delta := 1) (epsilon := 0)
      (by norm_num) (y := -y) (by linarith)
    simpa using this
  rw [e]
  intro h2
  have h3 := (iso_eq (by norm_num) (by norm_num)).1 h2
  unfold lead at h1 h3
  norm_num at h1 h3
  have : y = 0 := by linarith
  linarith

/-- `SRKTranslatedPPJP` (10325-10408) subclasses `SRK`, not `SRKTranslated`, and so uses `SRK.solve_T` although its
`delta = 2c + b0`, `epsilon = c(b0 + c)` and `b = b0 - c` differ from those of `SRK`. -/
def ppjpSolveT (R Tc a b0 m c P V : ℝ) : Option ℝ := srkSolveT R Tc a (b0 - c) m P V

/-- **C34.** The temperature `SRKTranslatedPPJP` finds from pressure and volume does not have that pressure when the
translation is not zero. -/
theorem C34_SRKTranslatedPPJP_fails : ∃ T, ppjpSolveT 1 1 1 2 0 1 1 2 = some T
    ∧ pressure 1 T (2 - 1) (1 + 1 + 2) (1 * (2 + 1)) (soave 1 1 0 T) 2 ≠ 1 := by
  have h := srk_closed (R := 1) (Tc := 1) (a := 1) (b := 2 - 1) (m := 0) (P := 1) (V := 2)
    (by norm_num) (by norm_num) (by unfold lead; norm_num) (by unfold disc lead; norm_num)
  refine ⟨_, h, ?_⟩
  have hS : (0 : ℝ) ≤ disc 1 1 1 0 1 (2 - (2 - 1)) (2 ^ 2 + (2 - 1) * 2) := by unfold disc lead; norm_num
  have h1 := iso_yLow (R := 1) (Tc := 1) (a := 1) (m := 0) (P := 1) (v := 2 - (2 - 1)) (w := 2 ^ 2 + (2 - 1) * 2)
    (by norm_num) (by norm_num) (by unfold lead; norm_num) hS
  generalize yLow 1 1 1 0 1 (2 - (2 - 1)) (2 ^ 2 + (2 - 1) * 2) = y at *
  unfold iso at h1
  unfold pressure soave
  norm_num at h1 ⊢
  intro h2
  linarith

/-! ### Peng-Robinson -/

theorem pr_closed (hV : b < V) (hw : 0 < V ^ 2 + 2 * b * V + -b ^ 2)
    (hD : lead R Tc a m (V - b) (V ^ 2 + 2 * b * V + -b ^ 2) ≠ 0)
    (hS : 0 ≤ disc R Tc a m P (V - b) (V ^ 2 + 2 * b * V + -b ^ 2)) :
    prClosed R Tc a b m P V = some (Tc * yLow R Tc a m P (V - b) (V ^ 2 + 2 * b * V + -b ^ 2) ^ 2,
      Tc * yHigh R Tc a m P (V - b) (V ^ 2 + 2 * b * V + -b ^ 2) ^ 2) := by
  have hv : 0 < V - b := sub_pos.2 hV
  unfold prClosed
  dsimp only
  have hrad : (V - b) ^ 3 * (V * V + 2 * V * b - b * b) * (P * (R * Tc * (2 * V * b)) - P * (R * Tc * (b * b))
      + a * (R * Tc) + 2 * (R * Tc * a * m) + P * (V * V * (R * Tc)) + P * (b * (a * (m * m)))
      + a * (R * Tc) * (m * m) - P * (V * (a * (m * m))))
      = (V - b) ^ 2 * disc R Tc a m P (V - b) (V ^ 2 + 2 * b * V + -b ^ 2) := by unfold disc lead; ring
  rw [hrad, if_neg (not_lt.2 (by positivity)), Real.sqrt_mul (by positivity), Real.sqrt_sq hv.le]
  unfold yLow yHigh
  have hq := Real.sq_sqrt hS
  generalize √(disc R Tc a m P (V - b) (V ^ 2 + 2 * b * V + -b ^ 2)) = q at *
  have hq' : q ^ 2 = (V ^ 2 + 2 * b * V + -b ^ 2) * (V - b) * (P * lead R Tc a m (V - b) (V ^ 2 + 2 * b * V + -b ^ 2)
    + R * Tc * a * (1 + m) ^ 2) := hq
  have e1 : V * V * (R * Tc) - V * (a * (m * m)) + b * (a * (m * m)) + R * Tc * (2 * V * b) - R * Tc * (b * b)
      = lead R Tc a m (V - b) (V ^ 2 + 2 * b * V + -b ^ 2) := by unfold lead; ring
  have e2 : 6 * V * (a * (R * Tc) * (b * b) * (m * m)) - 2 * b * (V * V * (a * (R * Tc)) * (m * m))
      + V * V * (R * R) * (Tc * Tc) * (2 * (b * b)) + V * V * (a * a * (m * m * (m * m)))
      + V * V * (V * V) * (R * R * (Tc * Tc)) + R * R * (Tc * Tc) * (b * b * (b * b))
      - R * R * (Tc * Tc) * (4 * V * (b * b * b)) + R * R * (Tc * Tc) * (4 * b * (V * V * V))
      - a * a * (m * m * (m * m)) * (2 * V * b) + a * a * (m * m * (m * m)) * (b * b)
      - V * V * V * (2 * R * Tc * a * (m * m)) - 2 * R * Tc * a * (m * m) * (b * b * b)
      = lead R Tc a m (V - b) (V ^ 2 + 2 * b * V + -b ^ 2) ^ 2 := by unfold lead; ring
  rw [e1, e2]
  have hD2 : lead R Tc a m (V - b) (V ^ 2 + 2 * b * V + -b ^ 2) ^ 2 ≠ 0 := pow_ne_zero _ hD
  have hN : (V - b) * (4 * V * (R * Tc * a * b * m) + V * V * (2 * (R * Tc * a * m)) - V * V * (P * (b * (a * (m * m))))
      + V * V * (V * V) * (P * R * Tc) + b * b * (b * b) * (P * R * Tc) + m * m * (m * m) * (V * (a * a))
      - m * m * (m * m) * (b * (a * a)) - V * V * V * (P * a * (m * m)) - b * b * b * (P * a * (m * m))
      - 4 * V * (b * b * b) * (P * R * Tc) + 4 * b * (V * V * V) * (P * R * Tc) + a * (R * Tc) * (2 * V * b)
      - a * (R * Tc) * (b * b) - a * (R * Tc) * (b * b) * (m * m) + V * V * (a * (R * Tc))
      + V * V * (a * (R * Tc)) * (m * m) + m * m * (V * (a * a)) - m * m * (b * (a * a))
      + 2 * (b * b) * (P * (V * V * (R * Tc))) - 2 * (R * Tc * a * m) * (b * b) + a * (R * Tc) * (m * m) * (2 * V * b)
      + 3 * (P * (V * (a * (m * m)))) * (b * b) + V * (a * a) * (2 * m * (m * m)) - 2 * m * (m * m) * (b * (a * a)))
      = (a * m * (1 + m) * (V - b)) ^ 2 + q ^ 2 := by
    rw [hq']
    unfold lead
    ring
  have e4 : ∀ A B X : ℝ, A * (V - b) * X = A * ((V - b) * X) := fun A B X => by ring
  rw [e4 _ 0, hN]
  generalize lead R Tc a m (V - b) (V ^ 2 + 2 * b * V + -b ^ 2) = D at *
  have hD4 : D * D * D ^ 2 ≠ 0 := by positivity
  congr 2
  · rw [div_pow, div_mul_eq_mul_div, mul_div_assoc', div_eq_div_iff hD4 hD2]
    ring
  · rw [div_pow, div_mul_eq_mul_div, mul_div_assoc', div_eq_div_iff hD4 hD2]
    ring

theorem prErr_eq (hTc : 0 < Tc) (T : ℝ) : prErr R Tc a b m P V T
    = pressure R T b (2 * b) (-b ^ 2) (soave a Tc m T) V - P := by
  unfold prErr pressure soave
  dsimp only
  rw [show T * (1 / Tc) = T / Tc by ring, show V * (V + b) + b * (V - b) = V ^ 2 + 2 * b * V + -b ^ 2 by ring]
  ring

/-- **C34.** The derivative used in the two correction steps of `PR.solve_T` is the derivative of the residual. -/
theorem C34_PR_newton (hTc : 0 < Tc) (hT : 0 < T) :
    HasDerivAt (fun t => prErr R Tc a b m P V t) (prDerr R Tc a b m V T) T := by
  have hs : HasDerivAt (fun t => √(t * (1 / Tc))) (√(T * (1 / Tc)) / (2 * T)) T := by
    have h := ((hasDerivAt_id' T).mul_const (1 / Tc)).sqrt (by positivity)
    refine h.congr_deriv ?_
    have hp : 0 < √(T * (1 / Tc)) := Real.sqrt_pos.2 (by positivity)
    have hq : √(T * (1 / Tc)) ^ 2 = T * (1 / Tc) := Real.sq_sqrt (by positivity)
    generalize √(T * (1 / Tc)) = s at *
    rw [div_eq_div_iff (by positivity) (by positivity)]
    linear_combination -2 * hq
  unfold prErr prDerr
  dsimp only
  have ha : HasDerivAt (fun t => 1 + m * (1 - √(t * (1 / Tc)))) (m * -(√(T * (1 / Tc)) / (2 * T))) T :=
    ((hs.const_sub 1).const_mul m).const_add 1
  have h := ((((hasDerivAt_id' T).const_mul (R / (V - b))).fun_sub
    ((ha.fun_mul ha).mul_const (a / (V * (V + b) + b * (V - b))))).sub_const P)
  refine h.congr_deriv ?_
  field_simp
  ring

/-- **C34.** `PR.solve_T`: if the closed form exists, the returned temperature has the given pressure. Exact
arithmetic makes the two correction steps do nothing. -/
theorem C34_PR (generic : Option ℝ) (hTc : 0 < Tc) (ha : 0 ≤ a) (hb : 0 < b) (hV : b < V) (hP : 0 < P)
    (hD : R * Tc * (V ^ 2 + 2 * b * V - b ^ 2) - a * m ^ 2 * (V - b) ≠ 0)
    (hm : 0 ≤ m * (1 + m) ∨ 0 < R * Tc * (V ^ 2 + 2 * b * V - b ^ 2) - a * m ^ 2 * (V - b))
    (hc : prClosed R Tc a b m P V ≠ none) :
    ∃ T, prSolveT generic false R Tc a b m P V = some T ∧ 0 < T
      ∧ pressure R T b (2 * b) (-b ^ 2) (soave a Tc m T) V = P := by
  have hv : 0 < V - b := sub_pos.2 hV
  have hV0 : 0 < V := hb.trans hV
  have hw : 0 < V ^ 2 + 2 * b * V + -b ^ 2 := by nlinarith
  rw [sub_eq_add_neg (V ^ 2 + 2 * b * V)] at hD hm
  have hS : 0 ≤ disc R Tc a m P (V - b) (V ^ 2 + 2 * b * V + -b ^ 2) := by
    by_contra hn
    apply hc
    unfold prClosed
    dsimp only
    have hrad : (V - b) ^ 3 * (V * V + 2 * V * b - b * b) * (P * (R * Tc * (2 * V * b)) - P * (R * Tc * (b * b))
        + a * (R * Tc) + 2 * (R * Tc * a * m) + P * (V * V * (R * Tc)) + P * (b * (a * (m * m)))
        + a * (R * Tc) * (m * m) - P * (V * (a * (m * m))))
        = (V - b) ^ 2 * disc R Tc a m P (V - b) (V ^ 2 + 2 * b * V + -b ^ 2) := by unfold disc lead; ring
    rw [hrad, if_pos (mul_neg_of_pos_of_neg (by positivity) (not_le.1 hn))]
  have hy := yLow_pos hv hw ha hP hm hD hS
  have hpr : pressure R (Tc * yLow R Tc a m P (V - b) (V ^ 2 + 2 * b * V + -b ^ 2) ^ 2) b (2 * b) (-b ^ 2)
      (soave a Tc m (Tc * yLow R Tc a m P (V - b) (V ^ 2 + 2 * b * V + -b ^ 2) ^ 2)) V = P := by
    rw [pressure_iso hTc hy.le]; exact iso_yLow hv hw hD hS
  refine ⟨_, ?_, ?_, hpr⟩
  · unfold prSolveT
    rw [pr_closed hV hw hD hS]
    dsimp only
    have hT : 0 < Tc * yLow R Tc a m P (V - b) (V ^ 2 + 2 * b * V + -b ^ 2) ^ 2 := by positivity
    rw [if_neg (not_lt.2 hT.le)]
    simp only [Bool.false_eq_true, if_false]
    rw [prErr_eq hTc, hpr, sub_self, zero_div, abs_zero, if_neg (by norm_num), if_neg hT.ne', zero_div, sub_zero,
      if_neg hT.ne', prErr_eq hTc, hpr, sub_self, zero_div, sub_zero]
    split <;> rfl
  · positivity

example : ∃ T, prSolveT none false 8 500 2 (1 / 10000) 0.9 100000 (1 / 1000) = some T ∧ 0 < T
    ∧ pressure 8 T (1 / 10000) (2 * (1 / 10000)) (-(1 / 10000) ^ 2) (soave 2 500 0.9 T) (1 / 1000) = 100000 := by
  refine C34_PR none (by norm_num) (by norm_num) (by norm_num) (by norm_num) (by norm_num) (by norm_num)
    (.inl (by norm_num)) ?_
  rw [pr_closed (by norm_num) (by norm_num) (by unfold lead; norm_num) (by unfold disc lead; norm_num)]
  simp

/-- **C34.** With `solution='g'` and a negative leading coefficient (the isochore has a maximum) the returned
temperature also has the given pressure. -/
theorem C34_PR_gas (generic : Option ℝ) (hTc : 0 < Tc) (ha : 0 ≤ a) (hb : 0 < b) (hV : b < V) (hP : 0 < P)
    (hm : 0 ≤ m) (hD : R * Tc * (V ^ 2 + 2 * b * V - b ^ 2) - a * m ^ 2 * (V - b) < 0)
    (hc : prClosed R Tc a b m P V ≠ none) :
    ∃ T, prSolveT generic true R Tc a b m P V = some T ∧ 0 < T
      ∧ pressure R T b (2 * b) (-b ^ 2) (soave a Tc m T) V = P := by
  have hv : 0 < V - b := sub_pos.2 hV
  have hV0 : 0 < V := hb.trans hV
  have hw : 0 < V ^ 2 + 2 * b * V + -b ^ 2 := by nlinarith
  rw [sub_eq_add_neg (V ^ 2 + 2 * b * V)] at hD
  have hD0 : lead R Tc a m (V - b) (V ^ 2 + 2 * b * V + -b ^ 2) ≠ 0 := hD.ne
  have hD' : lead R Tc a m (V - b) (V ^ 2 + 2 * b * V + -b ^ 2) < 0 := hD
  have hS : 0 ≤ disc R Tc a m P (V - b) (V ^ 2 + 2 * b * V + -b ^ 2) := by
    by_contra hn
    apply hc
    unfold prClosed
    dsimp only
    have hrad : (V - b) ^ 3 * (V * V + 2 * V * b - b * b) * (P * (R * Tc * (2 * V * b)) - P * (R * Tc * (b * b))
        + a * (R * Tc) + 2 * (R * Tc * a * m) + P * (V * V * (R * Tc)) + P * (b * (a * (m * m)))
        + a * (R * Tc) * (m * m) - P * (V * (a * (m * m))))
        = (V - b) ^ 2 * disc R Tc a m P (V - b) (V ^ 2 + 2 * b * V + -b ^ 2) := by unfold disc lead; ring
    rw [hrad, if_pos (mul_neg_of_pos_of_neg (by positivity) (not_le.1 hn))]
  have hyl := yLow_pos hv hw ha hP (.inl (by positivity)) hD0 hS
  have hq := Real.sqrt_nonneg (disc R Tc a m P (V - b) (V ^ 2 + 2 * b * V + -b ^ 2))
  have hy : 0 < yHigh R Tc a m P (V - b) (V ^ 2 + 2 * b * V + -b ^ 2) := by
    refine lt_of_lt_of_le hyl ?_
    unfold yLow yHigh
    exact div_le_div_of_nonpos_of_le hD'.le (by linarith)
  have hpr : pressure R (Tc * yHigh R Tc a m P (V - b) (V ^ 2 + 2 * b * V + -b ^ 2) ^ 2) b (2 * b) (-b ^ 2)
      (soave a Tc m (Tc * yHigh R Tc a m P (V - b) (V ^ 2 + 2 * b * V + -b ^ 2) ^ 2)) V = P := by
    rw [pressure_iso hTc hy.le]; exact iso_yHigh hv hw hD0 hS
  refine ⟨_, ?_, ?_, hpr⟩
  · unfold prSolveT
    rw [pr_closed hV hw hD0 hS]
    dsimp only
    have hTl : 0 < Tc * yLow R Tc a m P (V - b) (V ^ 2 + 2 * b * V + -b ^ 2) ^ 2 := by positivity
    have hT : 0 < Tc * yHigh R Tc a m P (V - b) (V ^ 2 + 2 * b * V + -b ^ 2) ^ 2 := by positivity
    rw [if_neg (not_lt.2 hTl.le)]
    simp only [if_true]
    rw [prErr_eq hTc, hpr, sub_self, zero_div, abs_zero, if_neg (by norm_num), if_neg hT.ne', zero_div, sub_zero,
      if_neg hT.ne', prErr_eq hTc, hpr, sub_self, zero_div, sub_zero]
    split <;> rfl
  · positivity

example : ∃ T, prSolveT none true 1 1 100 1 1 1 2 = some T ∧ 0 < T
    ∧ pressure 1 T 1 (2 * 1) (-1 ^ 2) (soave 100 1 1 T) 2 = 1 := by
  refine C34_PR_gas none (by norm_num) (by norm_num) (by norm_num) (by norm_num) (by norm_num) (by norm_num)
    (by norm_num) ?_
  rw [pr_closed (by norm_num) (by norm_num) (by unfold lead; norm_num) (by unfold disc lead; norm_num)]
  simp

/-! ### Van der Waals and ideal gas -/

/-- **C34.** `VDW.solve_T` inverts the pressure, and is the only solution. -/
theorem C34_VDW (hR : R ≠ 0) (hV : V ≠ 0) (hb : V - b ≠ 0) :
    pressure R T b 0 0 a V = P ↔ T = vdwSolveT R a b P V := by
  unfold pressure vdwSolveT
  rw [show V ^ 2 + 0 * V + 0 = V ^ 2 by ring]
  rw [sub_eq_iff_eq_add, div_eq_iff hb, eq_div_iff (by positivity)]
  constructor
  · intro h; field_simp at h; linear_combination h
  · intro h; field_simp; linear_combination h

example : pressure 8 (vdwSolveT 8 1 (1 / 10000) 100000 (1 / 1000)) (1 / 10000) 0 0 1 (1 / 1000) = 100000 :=
  (C34_VDW (by norm_num) (by norm_num) (by norm_num)).2 rfl

/-- **C34.** `IG.solve_T`. -/
theorem C34_IG (hR : R ≠ 0) (hV : V ≠ 0) : R * T / V = P ↔ T = igSolveT R P V := by
  unfold igSolveT
  rw [div_eq_iff hV]
  constructor
  · intro h; rw [← h]; field_simp
  · intro h; rw [h]; field_simp

example : (8 : ℝ) * igSolveT 8 100000 2 / 2 = 100000 := (C34_IG (by norm_num) (by norm_num)).2 rfl

/-! ### Residuals of the iterative solvers -/

/-- `PRSV.solve_T.to_solve` (8684-8697). -/
def prsvRes (R Tc a b kappa0 kappa1 P V T : ℝ) : ℝ :=
  let x0 := V - b
  let R_x0 := R / x0
  let x3_inv := 1 / (100 * (V * (V + b) + b * x0))
  let x4 := 10 * kappa0
  let kappa110 := kappa1 * 10
  let kappa17 := kappa1 * 7
  let Tc_inv := 1 / Tc
  let x51 := x3_inv * a
  let x1 := T * Tc_inv
  let x2 := √x1
  let x10 := (x4 - (kappa110 * x1 - kappa17) * (x2 + 1)) * (x2 - 1) - 10
  let x11 := T * R_x0 - P
  x11 - x10 * x10 * x51

/-- `PRSV2.solve_T.to_solve` (8951-8960). -/
def prsv2Res (R Tc a b kappa0 kappa1 kappa2 kappa3 P V T : ℝ) : ℝ :=
  let x0 := V - b
  let R_x0 := R / x0
  let x5_inv := 1 / (100 * (V * (V + b) + b * x0))
  let x4 := 10 * kappa0
  let x1 := T / Tc
  let x2 := √x1
  let x3 := x2 - 1
  let x100 := x3 * (x4 - (kappa1 + kappa2 * x3 * (-kappa3 + x1)) * (10 * x1 - 7) * (x2 + 1)) - 10
  (R_x0 * T - a * x100 * x100 * x5_inv) - P

/-- `APISRK.solve_T.to_solve` (10706-10712). -/
def apiRes (R Tc a b S1 S2 P V T : ℝ) : ℝ :=
  let x2 := R / (V - b)
  let x3 := V * (V + b)
  let x0 := √(T / Tc)
  let x1 := x0 - 1
  (x2 * T - a * (S1 * x1 + S2 * x1 / x0 - 1) ^ 2 / x3) - P

/-- **C34.** The residuals handed to the solvers by PRSV, PRSV2 and APISRK are the pressure of the equation with the
documented attraction minus the given pressure, for every temperature. -/
theorem C34_residuals (kappa0 kappa1 kappa2 kappa3 S1 S2 : ℝ) :
    prsvRes R Tc a b kappa0 kappa1 P V T = pressure R T b (2 * b) (-b ^ 2)
        (a * (1 + (kappa0 + kappa1 * (1 + √(T / Tc)) * (0.7 - T / Tc)) * (1 - √(T / Tc))) ^ 2) V - P
    ∧ prsv2Res R Tc a b kappa0 kappa1 kappa2 kappa3 P V T = pressure R T b (2 * b) (-b ^ 2)
        (a * (1 + (kappa0 + (kappa1 + kappa2 * (kappa3 - T / Tc) * (1 - √(T / Tc))) * (1 + √(T / Tc)) * (0.7 - T / Tc))
          * (1 - √(T / Tc))) ^ 2) V - P
    ∧ apiRes R Tc a b S1 S2 P V T = pressure R T b b 0
        (a * (1 + S1 * (1 - √(T / Tc)) + S2 * (1 - √(T / Tc)) / √(T / Tc)) ^ 2) V - P := by
  refine ⟨?_, ?_, ?_⟩
  · unfold prsvRes pressure
    dsimp only
    rw [show T * (1 / Tc) = T / Tc by ring,
      show V * (V + b) + b * (V - b) = V ^ 2 + 2 * b * V + -b ^ 2 by ring]
    generalize √(T / Tc) = s
    generalize T / Tc = x
    rw [one_div, mul_inv]
    ring
  · unfold prsv2Res pressure
    dsimp only
    rw [show V * (V + b) + b * (V - b) = V ^ 2 + 2 * b * V + -b ^ 2 by ring]
    generalize √(T / Tc) = s
    generalize T / Tc = x
    rw [one_div, mul_inv]
    ring
  · unfold apiRes pressure
    dsimp only
    rw [show V * (V + b) = V ^ 2 + b * V + 0 by ring]
    generalize √(T / Tc) = s
    ring

/-- **C34.** `GCEOS.solve_T.to_solve_newton` (1653-1671): the slope is the derivative of the residual whenever the
attraction derivative is. -/
theorem C34_generic_newton {alpha : ℝ → ℝ} {dalpha delta epsilon : ℝ} (h : HasDerivAt alpha dalpha T) :
    HasDerivAt (fun t => R * t * (1 / (V - b)) - alpha t * (1 / (V * V + delta * V + epsilon)) - P)
      (R * (1 / (V - b)) - 1 / (V * V + delta * V + epsilon) * dalpha) T := by
  have := ((((hasDerivAt_id' T).const_mul R).mul_const (1 / (V - b))).fun_sub
    (h.mul_const (1 / (V * V + delta * V + epsilon)))).sub_const P
  exact this.congr_deriv (by ring)

/-! ### The largest pressure at a volume -/

/-- Completed square of the isochore. -/
theorem iso_square {v w y : ℝ} (hv : 0 < v) (hw : 0 < w) (hD : lead R Tc a m v w ≠ 0) :
    iso R Tc a m v w y = -R * Tc * a * (1 + m) ^ 2 / lead R Tc a m v w
      + lead R Tc a m v w / (v * w) * (y + a * m * (1 + m) * v / lead R Tc a m v w) ^ 2 := by
  unfold iso
  have e : R * Tc * w = lead R Tc a m v w + a * m ^ 2 * v := by unfold lead; ring
  generalize lead R Tc a m v w = D at *
  field_simp
  linear_combination (y ^ 2 * D + a * (1 + m) ^ 2 * v) * e

/-- The isochore, as a function of temperature, stays below `M`, and reaches it. -/
def IsMaxPressure (pr : ℝ → ℝ) (M : ℝ) : Prop := (∀ T, 0 ≤ T → pr T ≤ M) ∧ ∃ T, 0 ≤ T ∧ pr T = M

/-- The isochore is unbounded. -/
def Unbounded (pr : ℝ → ℝ) : Prop := ∀ M, ∃ T, 0 ≤ T ∧ M < pr T

theorem pmax_core {delta epsilon : ℝ} (hTc : 0 < Tc) (hR : 0 < R) (ha : 0 < a) (hm : 0 ≤ m) (hv : 0 < V - b)
    (hw : 0 < V ^ 2 + delta * V + epsilon)
    (hD : lead R Tc a m (V - b) (V ^ 2 + delta * V + epsilon) ≠ 0) :
    (lead R Tc a m (V - b) (V ^ 2 + delta * V + epsilon) < 0 →
      IsMaxPressure (fun T => pressure R T b delta epsilon (soave a Tc m T) V)
        (-R * Tc * a * (1 + m) ^ 2 / lead R Tc a m (V - b) (V ^ 2 + delta * V + epsilon)))
    ∧ (0 < lead R Tc a m (V - b) (V ^ 2 + delta * V + epsilon) →
      Unbounded (fun T => pressure R T b delta epsilon (soave a Tc m T) V)) := by
  set w := V ^ 2 + delta * V + epsilon with hwd
  set v := V - b with hvd
  have hpr : ∀ y, 0 ≤ y → pressure R (Tc * y ^ 2) b delta epsilon (soave a Tc m (Tc * y ^ 2)) V
      = iso R Tc a m v w y := fun y hy => pressure_iso hTc hy
  constructor
  · intro hneg
    have hy0 : 0 ≤ -(a * m * (1 + m) * v / lead R Tc a m v w) := by
      rw [← div_neg]
      exact div_nonneg (by positivity) (by linarith)
    refine ⟨fun T hT => ?_, Tc * (-(a * m * (1 + m) * v / lead R Tc a m v w)) ^ 2, by positivity, ?_⟩
    · have eT : T = Tc * √(T / Tc) ^ 2 := by rw [Real.sq_sqrt (by positivity)]; field_simp
      simp only
      rw [eT, hpr _ (Real.sqrt_nonneg _), iso_square hv hw hD]
      have : lead R Tc a m v w / (v * w) * (√(T / Tc) + a * m * (1 + m) * v / lead R Tc a m v w) ^ 2 ≤ 0 :=
        mul_nonpos_of_nonpos_of_nonneg (div_nonpos_of_nonpos_of_nonneg hneg.le (by positivity)) (by positivity)
      linarith
    · simp only
      rw [hpr _ hy0, iso_square hv hw hD]
      ring
  · intro hpos M
    have hk : 0 < lead R Tc a m v w / (v * w) := by positivity
    set k := lead R Tc a m v w / (v * w) with hkd
    set s := a * m * (1 + m) * v / lead R Tc a m v w with hsd
    have hs : 0 ≤ s := by rw [hsd]; positivity
    set B := -R * Tc * a * (1 + m) ^ 2 / lead R Tc a m v w with hB
    refine ⟨Tc * (1 + |M - B| / k) ^ 2, by positivity, ?_⟩
    simp only
    rw [hpr _ (by positivity), iso_square hv hw hD]
    have h1 : 1 + |M - B| / k ≤ (1 + |M - B| / k + s) ^ 2 := by
      have : 0 ≤ |M - B| / k := by positivity
      nlinarith
    have h2 : k * (1 + |M - B| / k) ≤ k * (1 + |M - B| / k + s) ^ 2 := mul_le_mul_of_nonneg_left h1 hk.le
    have h3 : k * (1 + |M - B| / k) = k + |M - B| := by field_simp
    have h4 := le_abs_self (M - B)
    linarith

/-- **C35.** `SRK.P_max_at_V`: a returned value is the maximum of the pressure over all temperatures at that volume;
`None` means the pressure is unbounded. -/
theorem C35_SRK (hR : 0 < R) (hTc : 0 < Tc) (ha : 0 < a) (hb : 0 < b) (hV : b < V) (hm : 0 ≤ m)
    (hD : R * Tc * (V ^ 2 + b * V) - a * m ^ 2 * (V - b) ≠ 0) :
    match srkPmax R Tc a b m V with
    | some M => IsMaxPressure (fun T => pressure R T b b 0 (soave a Tc m T) V) M
    | none => Unbounded (fun T => pressure R T b b 0 (soave a Tc m T) V) := by
  have hv : 0 < V - b := sub_pos.2 hV
  have hV0 : 0 < V := hb.trans hV
  have hw : 0 < V ^ 2 + b * V + 0 := by positivity
  have hD' : lead R Tc a m (V - b) (V ^ 2 + b * V + 0) ≠ 0 := by unfold lead; rw [add_zero]; exact hD
  obtain ⟨h1, h2⟩ := pmax_core hTc hR ha hm hv hw hD'
  unfold srkPmax
  dsimp only
  have e : -R * Tc * a * (m ^ 2 + 2 * m + 1) / (R * Tc * V ^ 2 + R * Tc * V * b - V * a * m ^ 2 + a * b * m ^ 2)
      = -R * Tc * a * (1 + m) ^ 2 / lead R Tc a m (V - b) (V ^ 2 + b * V + 0) := by
    unfold lead; congr 1 <;> ring
  rw [e]
  have hN : -R * Tc * a * (1 + m) ^ 2 < 0 := by
    have : 0 < R * Tc * a * (1 + m) ^ 2 := by positivity
    linarith
  rcases lt_or_gt_of_ne hD' with hneg | hpos
  · rw [if_neg (not_lt.2 (div_pos_of_neg_of_neg hN hneg).le)]
    exact h1 hneg
  · rw [if_pos (div_neg_of_neg_of_pos hN hpos)]
    exact h2 hpos

example : ∃ M, srkPmax 1 1 100 1 1 2 = some M ∧ IsMaxPressure (fun T => pressure 1 T 1 1 0 (soave 100 1 1 T) 2) M := by
  have h := C35_SRK (R := 1) (Tc := 1) (a := 100) (b := 1) (V := 2) (m := 1) (by norm_num) (by norm_num) (by norm_num)
    (by norm_num) (by norm_num) (by norm_num) (by norm_num)
  have e : srkPmax 1 1 100 1 1 2 = some (200 / 47) := by unfold srkPmax; norm_num
  rw [e] at h
  exact ⟨_, e, h⟩

/-- **C35.** `PR.P_max_at_V`. -/
theorem C35_PR (hR : 0 < R) (hTc : 0 < Tc) (ha : 0 < a) (hb : 0 < b) (hV : b < V) (hm : 0 ≤ m)
    (hD : R * Tc * (V ^ 2 + 2 * b * V - b ^ 2) - a * m ^ 2 * (V - b) ≠ 0) :
    match prPmax R Tc a b m V with
    | some M => IsMaxPressure (fun T => pressure R T b (2 * b) (-b ^ 2) (soave a Tc m T) V) M
    | none => Unbounded (fun T => pressure R T b (2 * b) (-b ^ 2) (soave a Tc m T) V) := by
  have hv : 0 < V - b := sub_pos.2 hV
  have hV0 : 0 < V := hb.trans hV
  have hw : 0 < V ^ 2 + 2 * b * V + -b ^ 2 := by nlinarith
  have hD' : lead R Tc a m (V - b) (V ^ 2 + 2 * b * V + -b ^ 2) ≠ 0 := hD
  obtain ⟨h1, h2⟩ := pmax_core hTc hR ha hm hv hw hD'
  unfold prPmax
  dsimp only
  have e : -R * Tc * a * (m ^ 2 + 2 * m + 1)
      / (R * Tc * V ^ 2 + 2 * R * Tc * V * b - R * Tc * b ^ 2 - V * a * m ^ 2 + a * b * m ^ 2)
      = -R * Tc * a * (1 + m) ^ 2 / lead R Tc a m (V - b) (V ^ 2 + 2 * b * V + -b ^ 2) := by
    unfold lead; congr 1 <;> ring
  rw [e]
  have hN : -R * Tc * a * (1 + m) ^ 2 < 0 := by
    have : 0 < R * Tc * a * (1 + m) ^ 2 := by positivity
    linarith
  rcases lt_or_gt_of_ne hD' with hneg | hpos
  · rw [if_neg (not_lt.2 (div_pos_of_neg_of_neg hN hneg).le)]
    exact h1 hneg
  · rw [if_pos (div_neg_of_neg_of_pos hN hpos)]
    exact h2 hpos

example : ∃ M, prPmax 1 1 100 1 1 2 = some M
    ∧ IsMaxPressure (fun T => pressure 1 T 1 (2 * 1) (-1 ^ 2) (soave 100 1 1 T) 2) M := by
  have h := C35_PR (R := 1) (Tc := 1) (a := 100) (b := 1) (V := 2) (m := 1) (by norm_num) (by norm_num) (by norm_num)
    (by norm_num) (by norm_num) (by norm_num) (by norm_num)
  have e : prPmax 1 1 100 1 1 2 = some (400 / 93) := by unfold prPmax; norm_num
  rw [e] at h
  exact ⟨_, e, h⟩

/-- **C35.** With `m` in `(-1, 0)` the value of `SRK.P_max_at_V` need not be reached: the maximum of the quadratic
lies at a negative `√Tr`. -/
theorem C35_SRK_negative_m_fails : ∃ M, srkPmax 1 1 100 1 (-1 / 2) 2 = some M
    ∧ ¬ IsMaxPressure (fun T => pressure 1 T 1 1 0 (soave 100 1 (-1 / 2) T) 2) M := by
  refine ⟨25 / 19, by unfold srkPmax; norm_num, ?_⟩
  rintro ⟨_, T, hT, h⟩
  simp only at h
  have hs := Real.sqrt_nonneg (T / 1)
  have e : T = √(T / 1) ^ 2 := by rw [Real.sq_sqrt (by simpa using hT), div_one]
  unfold pressure soave at h
  generalize √(T / 1) = s at *
  subst e
  norm_num at h
  nlinarith [sq_nonneg (s + 25 / 19)]

/-- **C35.** `SRKTranslatedPPJP` inherits `SRK.P_max_at_V`; with a translation its value is exceeded. -/
theorem C35_SRKTranslatedPPJP_fails : ∃ M, srkPmax 1 1 100 (2 - 1) 1 2 = some M
    ∧ ∃ T, 0 ≤ T ∧ M < pressure 1 T (2 - 1) (1 + 1 + 2) (1 * (2 + 1)) (soave 100 1 1 T) 2 := by
  refine ⟨200 / 47, by unfold srkPmax; norm_num, 1 * (40 / 17) ^ 2, by norm_num, ?_⟩
  rw [pressure_iso (by norm_num) (by norm_num)]
  unfold iso
  norm_num

/-- `PRSV` and `PRSV2` inherit `PR.P_max_at_V`, with the `kappa` computed for the temperature of the object
(8652). -/
def prsvPmax (R Tc a b kappa0 kappa1 T0 V : ℝ) : Option ℝ :=
  prPmax R Tc a b (kappa0 + kappa1 * (1 + √(T0 / Tc)) * (0.7 - T0 / Tc)) V

/-- **C35.** For `PRSV`, whose `kappa` changes with temperature, the value is exceeded. -/
theorem C35_PRSV_fails : ∃ M, prsvPmax 1 1 100 1 1 (-1) 4 2 = some M
    ∧ ∃ T, 0 ≤ T ∧ M < pressure 1 T 1 (2 * 1) (-1 ^ 2)
      (100 * (1 + (1 + -1 * (1 + √(T / 1)) * (0.7 - T / 1)) * (1 - √(T / 1))) ^ 2) 2 := by
  have h4 : √(4 / 1 : ℝ) = 2 := by rw [show (4 / 1 : ℝ) = 2 ^ 2 by norm_num, Real.sqrt_sq (by norm_num)]
  have h1 : √(1.69 / 1 : ℝ) = 1.3 := by rw [show (1.69 / 1 : ℝ) = 1.3 ^ 2 by norm_num, Real.sqrt_sq (by norm_num)]
  refine ⟨1 * 1 * 100 * (10.9 ^ 2 + 2 * 10.9 + 1) / (100 * 10.9 ^ 2 - 7), ?_, 1.69, by norm_num, ?_⟩
  · unfold prsvPmax prPmax
    rw [h4]
    norm_num
  · rw [h1]
    unfold pressure
    norm_num

end

end Verif.SolveT
