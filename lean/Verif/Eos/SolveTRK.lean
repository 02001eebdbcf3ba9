import Verif.Eos.SolveT
import Mathlib.Analysis.SpecialFunctions.Pow.NNReal
import Mathlib.Analysis.SpecialFunctions.Pow.Complex
import Mathlib.Analysis.SpecialFunctions.Complex.Arg
import Mathlib.Tactic

/-!
# C34: temperature of the Redlich-Kwong equation from pressure and volume

`RK.solve_T` (`thermo/eos.py` 9568-9633): a complex closed form, used if its real part exceeds 1e-3, else `GCEOS.solve_T`.

Reals instead of floats: the decimal constants of 9622-9627 are the square root of 3 and the cube roots of 36 (3.30...), 2 (1.25...) and four times that of 24 (11.53...). Powers of complex numbers are principal
ones. The three solutions of 9605-9619 are not used, but computing them may raise.
-/

namespace Verif.SolveT

open Complex (I)

/-- Cube root of a constant. -/
noncomputable def cr (x : ℝ) : ℝ := x ^ (1 / 3 : ℝ)

/-- `RK.solve_T`, the closed form (9600-9601, 9622-9627). -/
noncomputable def rkClosed (R Tc a b P V : ℝ) : ℝ :=
  let a := a * √Tc
  let x1 : ℂ := -(I * (√3 : ℝ)) + 1
  let x2 := V - b
  let x3 := x2 / R
  let x4 := V + b
  let x5 : ℂ := ((√3 : ℝ) * ((x2 * x2 * (-4 * P * P * P * x3 + 27 * a * a / (V * V * x4 * x4)) / (R * R) : ℝ) : ℂ) ^ (1 / 2 : ℂ) - (9 * a * x3 / (V * x4) : ℝ)) ^ (1 / 3 : ℂ)
  ((cr 36 : ℝ) * ((4 * cr 24 * P * x3 : ℝ) / (x1 * x5) + (cr 2 : ℝ) * x1 * x5) ^ 2 / 144).re

/-- The base of `x6` (9611). -/
noncomputable def rkBase (R Tc a b P V : ℝ) : ℂ :=
  let a := a * √Tc
  let x0 := √3
  let x3 := V + b
  let x4 := V - b
  let x5 := x4 / R
  x0 * ((x4 ^ 2 * (-4 * P ^ 3 * x5 + 27 * a ^ 2 / (V ^ 2 * x3 ^ 2)) / R ^ 2 : ℝ) : ℂ) ^ (1 / 2 : ℂ) - (9 * a * x5 / (V * x3) : ℝ)

open Classical in
/-- `RK.solve_T` (9603-9633); `generic` is `GCEOS.solve_T`. The division by `x6` (9613) is outside of the `try`: `none` if it raises or `generic` does. -/
noncomputable def rkSolveT (generic : Option ℝ) (chosen : Bool) (R Tc a b P V : ℝ) : Option ℝ :=
  if chosen then generic else if rkBase R Tc a b P V = 0 then none else if 1 / 1000 < rkClosed R Tc a b P V then some (rkClosed R Tc a b P V) else generic

theorem cr_pos {x : ℝ} (h : 0 < x) : 0 < cr x := Real.rpow_pos_of_pos h _

theorem cr_cube {x : ℝ} (h : 0 < x) : cr x ^ 3 = x := by
  unfold cr
  rw [← Real.rpow_natCast, ← Real.rpow_mul h.le]
  norm_num

theorem cr_of_cube {x y : ℝ} (hy : 0 < y) (h : y ^ 3 = x) : cr x = y := by
  have hx : 0 < x := h ▸ pow_pos hy 3
  exact (pow_left_inj₀ (n := 3) (cr_pos hx).le hy.le (by norm_num)).mp (by rw [cr_cube hx, h])

/-- The square root term and the cube root, in terms of the reduced cubic `y ^ 3 = p y + q`. -/
noncomputable def rkZ (p q : ℝ) : ℂ := (√3 : ℝ) * ((27 * q ^ 2 - 4 * p ^ 3 : ℝ) : ℂ) ^ (1 / 2 : ℂ) - (9 * q : ℝ)

noncomputable def rkY (p q : ℝ) : ℂ :=
  let t := (-(I * (√3 : ℝ)) + 1) * rkZ p q ^ (1 / 3 : ℂ)
  ((cr 2 * cr 3 / 12 : ℝ) : ℂ) * ((8 * cr 3 * p : ℝ) / t + (cr 2 : ℝ) * t)

theorem rkClosed_eq (R Tc a b P V : ℝ) (hR : 0 < R) (hb : 0 < b) (hV : b < V) :
    rkClosed R Tc a b P V = (rkY (P * ((V - b) / R)) (a * √Tc * ((V - b) / R) / (V * (V + b))) ^ 2).re := by
  have hV0 : V ≠ 0 := by linarith
  have hVb : V + b ≠ 0 := by linarith
  have e2 : (0 : ℝ) < cr 2 := cr_pos (by norm_num)
  have e3 : (0 : ℝ) < cr 3 := cr_pos (by norm_num)
  have c2 := cr_cube (x := 2) (by norm_num)
  have c3 := cr_cube (x := 3) (by norm_num)
  have h36 : cr 36 = (cr 2 * cr 3) ^ 2 := cr_of_cube (by positivity) (by
    have : ((cr 2 * cr 3) ^ 2) ^ 3 = (cr 2 ^ 3) ^ 2 * (cr 3 ^ 3) ^ 2 := by ring
    rw [this, c2, c3]; norm_num)
  have h24 : cr 24 = 2 * cr 3 := cr_of_cube (by positivity) (by
    have : (2 * cr 3) ^ 3 = 8 * cr 3 ^ 3 := by ring
    rw [this, c3]; norm_num)
  have hD : (V - b) * (V - b) * (-4 * P * P * P * ((V - b) / R) + 27 * (a * √Tc) * (a * √Tc) / (V * V * (V + b) * (V + b))) / (R * R)
      = 27 * (a * √Tc * ((V - b) / R) / (V * (V + b))) ^ 2 - 4 * (P * ((V - b) / R)) ^ 3 := by
    field_simp
    ring
  have hq : 9 * (a * √Tc) * ((V - b) / R) / (V * (V + b)) = 9 * (a * √Tc * ((V - b) / R) / (V * (V + b))) := by ring
  unfold rkClosed rkY rkZ
  dsimp only
  rw [hD, hq, h36, h24]
  generalize ((√3 : ℝ) * ((27 * (a * √Tc * ((V - b) / R) / (V * (V + b))) ^ 2 - 4 * (P * ((V - b) / R)) ^ 3 : ℝ) : ℂ) ^ (1 / 2 : ℂ) - (9 * (a * √Tc * ((V - b) / R) / (V * (V + b))) : ℝ)) ^ (1 / 3 : ℂ) = c
  congr 1
  push_cast
  ring

theorem rkBase_eq (R Tc a b P V : ℝ) (hR : 0 < R) (hb : 0 < b) (hV : b < V) :
    rkBase R Tc a b P V = rkZ (P * ((V - b) / R)) (a * √Tc * ((V - b) / R) / (V * (V + b))) := by
  have hV0 : V ≠ 0 := by linarith
  have hVb : V + b ≠ 0 := by linarith
  have hD : (V - b) ^ 2 * (-4 * P ^ 3 * ((V - b) / R) + 27 * (a * √Tc) ^ 2 / (V ^ 2 * (V + b) ^ 2)) / R ^ 2
      = 27 * (a * √Tc * ((V - b) / R) / (V * (V + b))) ^ 2 - 4 * (P * ((V - b) / R)) ^ 3 := by
    field_simp
    ring
  have hq : 9 * (a * √Tc) * ((V - b) / R) / (V * (V + b)) = 9 * (a * √Tc * ((V - b) / R) / (V * (V + b))) := by ring
  unfold rkBase rkZ
  dsimp only
  rw [hD, hq]

theorem cube_cpow (z : ℂ) : (z ^ (1 / 3 : ℂ)) ^ 3 = z := by
  have := Complex.cpow_nat_inv_pow z (n := 3) (by norm_num)
  rw [one_div]
  exact_mod_cast this

theorem sq_cpow (z : ℂ) : (z ^ (1 / 2 : ℂ)) ^ 2 = z := by
  have := Complex.cpow_nat_inv_pow z (n := 2) (by norm_num)
  rw [one_div]
  exact_mod_cast this

theorem sqrt3C : ((√3 : ℝ) : ℂ) ^ 2 = 3 := by
  rw [← Complex.ofReal_pow, Real.sq_sqrt (by norm_num)]
  norm_num

theorem x1_cube : (-(I * ((√3 : ℝ) : ℂ)) + 1) ^ 3 = -8 := by
  have h := sqrt3C
  have hI := Complex.I_sq
  generalize ((√3 : ℝ) : ℂ) = w at *
  have : (-(I * w) + 1) ^ 3 = 1 - 3 * I * w + 3 * I ^ 2 * w ^ 2 - I * I ^ 2 * w * w ^ 2 := by ring
  rw [this, h, hI]
  ring

theorem rkZ_eq (p q : ℝ) : rkZ p q ^ 2 + 18 * q * rkZ p q + 12 * p ^ 3 = 0 := by
  have h := sqrt3C
  have h2 := sq_cpow ((27 * q ^ 2 - 4 * p ^ 3 : ℝ) : ℂ)
  unfold rkZ
  generalize ((27 * q ^ 2 - 4 * p ^ 3 : ℝ) : ℂ) ^ (1 / 2 : ℂ) = d at *
  generalize ((√3 : ℝ) : ℂ) = w at *
  push_cast at *
  have : (w * d - 9 * q) ^ 2 + 18 * q * (w * d - 9 * q) + 12 * p ^ 3 = w ^ 2 * d ^ 2 - 81 * q ^ 2 + 12 * p ^ 3 := by ring
  rw [this, h, h2]
  ring

theorem rkZ_ne (p q : ℝ) (hp : p ≠ 0) : rkZ p q ≠ 0 := by
  intro h
  have := rkZ_eq p q
  rw [h] at this
  have hp' : (p : ℂ) ≠ 0 := by exact_mod_cast hp
  simp [hp'] at this

/-- The value solves the reduced cubic, whatever the branch. -/
theorem rkY_cubic (p q : ℝ) (hp : p ≠ 0) : rkY p q ^ 3 = p * rkY p q + q := by
  have hz := rkZ_ne p q hp
  have hz2 := rkZ_eq p q
  have hc3 := cube_cpow (rkZ p q)
  have hx := x1_cube
  have c2 : ((cr 2 : ℝ) : ℂ) ^ 3 = 2 := by rw [← Complex.ofReal_pow, cr_cube (by norm_num)]; norm_num
  have c3 : ((cr 3 : ℝ) : ℂ) ^ 3 = 3 := by rw [← Complex.ofReal_pow, cr_cube (by norm_num)]; norm_num
  unfold rkY
  dsimp only
  have ht3 : ((-(I * ((√3 : ℝ) : ℂ)) + 1) * rkZ p q ^ (1 / 3 : ℂ)) ^ 3 = -8 * rkZ p q := by rw [mul_pow, hx, hc3]
  generalize (-(I * ((√3 : ℝ) : ℂ)) + 1) * rkZ p q ^ (1 / 3 : ℂ) = t at *
  generalize rkZ p q = z at *
  have ht : t ≠ 0 := by rintro rfl; apply hz; have : (0 : ℂ) = -8 * z := by rw [← ht3]; ring
                        simpa using this.symm
  push_cast
  generalize ((cr 2 : ℝ) : ℂ) = s at *
  generalize ((cr 3 : ℝ) : ℂ) = u at *
  have hzt : z = -(t ^ 3) / 8 := by rw [ht3]; ring
  rw [hzt] at hz2
  have e1 : (s * u / 12 * (8 * u * p / t + s * t)) ^ 3 = (s ^ 3 * u ^ 3 / 6) * p * (s * u / 12 * (8 * u * p / t + s * t)) + (8 * s ^ 3 * (u ^ 3) ^ 2 / 27) * p ^ 3 / t ^ 3 + (s ^ 3) ^ 2 * u ^ 3 * t ^ 3 / 1728 := by
    field_simp
    ring
  rw [e1, c2, c3]
  have e2 : (8 * 2 * 3 ^ 2 / 27 : ℂ) * p ^ 3 / t ^ 3 + 2 ^ 2 * 3 * t ^ 3 / 1728 = q := by
    have ht3' : t ^ 3 ≠ 0 := pow_ne_zero 3 ht
    field_simp
    linear_combination (20736 : ℂ) * hz2
  linear_combination e2

theorem arg_third (z : ℂ) (hz : z ≠ 0) (him : 0 ≤ z.im) : 0 < (z ^ (1 / 3 : ℂ)).re ∧ 0 ≤ (z ^ (1 / 3 : ℂ)).im := by
  have h0 := Complex.arg_nonneg_iff.mpr him
  have h1 := Complex.arg_le_pi z
  rw [Complex.cpow_def_of_ne_zero hz]
  have e : Complex.log z * (1 / 3 : ℂ) = ((Real.log ‖z‖ / 3 : ℝ) : ℂ) + ((Complex.arg z / 3 : ℝ) : ℂ) * I := by
    rw [Complex.log]
    push_cast
    ring
  rw [e, Complex.exp_re, Complex.exp_im]
  simp only [Complex.add_re, Complex.ofReal_re, Complex.mul_re, Complex.I_re, mul_zero, Complex.ofReal_im, Complex.I_im, mul_one, sub_self, add_zero, Complex.add_im, Complex.mul_im, zero_add]
  have hpi := Real.pi_pos
  refine ⟨mul_pos (Real.exp_pos _) (Real.cos_pos_of_mem_Ioo ⟨by linarith, by linarith⟩), mul_nonneg (Real.exp_pos _).le (Real.sin_nonneg_of_nonneg_of_le_pi (by linarith) (by linarith))⟩

/-- For positive pressures the value is real and positive. -/
theorem rkY_real (p q : ℝ) (hp : 0 < p) (hq : 0 < q) : ∃ y : ℝ, 0 < y ∧ rkY p q = y := by
  have e2 : (0 : ℝ) < cr 2 := cr_pos (by norm_num)
  have e3 : (0 : ℝ) < cr 3 := cr_pos (by norm_num)
  have c2 := cr_cube (x := 2) (by norm_num)
  have c3 := cr_cube (x := 3) (by norm_num)
  have hz := rkZ_ne p q hp.ne'
  rcases le_or_gt 0 (27 * q ^ 2 - 4 * p ^ 3) with hD | hD
  · have hd : ((27 * q ^ 2 - 4 * p ^ 3 : ℝ) : ℂ) ^ (1 / 2 : ℂ) = ((√(27 * q ^ 2 - 4 * p ^ 3) : ℝ) : ℂ) := by
      rw [Real.sqrt_eq_rpow, Complex.ofReal_cpow hD]
      norm_num
    have hzr : rkZ p q = ((√3 * √(27 * q ^ 2 - 4 * p ^ 3) - 9 * q : ℝ) : ℂ) := by
      unfold rkZ
      rw [hd]
      push_cast
      ring
    have hneg : √3 * √(27 * q ^ 2 - 4 * p ^ 3) - 9 * q < 0 := by
      rw [← Real.sqrt_mul (by norm_num), sub_neg, Real.sqrt_lt' (by positivity)]
      have : 0 < p ^ 3 := by positivity
      nlinarith
    generalize √3 * √(27 * q ^ 2 - 4 * p ^ 3) - 9 * q = r at *
    have hc : rkZ p q ^ (1 / 3 : ℂ) = (((-r) ^ (1 / 3 : ℝ) : ℝ) : ℂ) * (1 / 2 + (√3 / 2 : ℝ) * I) := by
      rw [hzr, Complex.ofReal_cpow_of_nonpos hneg.le]
      congr 1
      · rw [← Complex.ofReal_neg, Complex.ofReal_cpow (by linarith)]
        norm_num
      · rw [show (Real.pi : ℂ) * I * (1 / 3) = ((Real.pi / 3 : ℝ) : ℂ) * I by push_cast; ring, Complex.exp_mul_I, ← Complex.ofReal_cos, ← Complex.ofReal_sin, Real.cos_pi_div_three, Real.sin_pi_div_three]
        push_cast
        ring
    have hρ : 0 < (-r) ^ (1 / 3 : ℝ) := Real.rpow_pos_of_pos (by linarith) _
    generalize (-r) ^ (1 / 3 : ℝ) = ρ at *
    have ht : (-(I * ((√3 : ℝ) : ℂ)) + 1) * rkZ p q ^ (1 / 3 : ℂ) = ((2 * ρ : ℝ) : ℂ) := by
      rw [hc]
      have h := sqrt3C
      have hI := Complex.I_sq
      push_cast
      generalize ((√3 : ℝ) : ℂ) = w at *
      have : (-(I * w) + 1) * (ρ * (1 / 2 + w / 2 * I)) = ρ * (1 / 2) - I ^ 2 * w ^ 2 * ρ / 2 := by ring
      rw [this, h, hI]
      ring
    refine ⟨cr 2 * cr 3 / 12 * (8 * cr 3 * p / (2 * ρ) + cr 2 * (2 * ρ)), by positivity, ?_⟩
    unfold rkY
    dsimp only
    rw [ht]
    push_cast
    ring
  · have hd : ((27 * q ^ 2 - 4 * p ^ 3 : ℝ) : ℂ) ^ (1 / 2 : ℂ) = ((√(-(27 * q ^ 2 - 4 * p ^ 3)) : ℝ) : ℂ) * I := by
      rw [Complex.ofReal_cpow_of_nonpos hD.le, Real.sqrt_eq_rpow, Complex.ofReal_cpow (by linarith)]
      congr 1
      · push_cast; norm_num
      · rw [show (Real.pi : ℂ) * I * (1 / 2) = (Real.pi / 2 : ℂ) * I by ring, Complex.exp_mul_I, Complex.cos_pi_div_two, Complex.sin_pi_div_two]
        ring
    have hzr : rkZ p q = ((-(9 * q) : ℝ) : ℂ) + ((√3 * √(-(27 * q ^ 2 - 4 * p ^ 3)) : ℝ) : ℂ) * I := by
      unfold rkZ
      rw [hd]
      push_cast
      ring
    have him : (rkZ p q).im = √3 * √(-(27 * q ^ 2 - 4 * p ^ 3)) := by rw [hzr]; simp
    have hre : (rkZ p q).re = -(9 * q) := by rw [hzr]; simp
    have hns : Complex.normSq (rkZ p q) = 12 * p ^ 3 := by
      rw [Complex.normSq_apply, him, hre]
      have a1 := Real.mul_self_sqrt (show (0 : ℝ) ≤ 3 by norm_num)
      have a2 := Real.mul_self_sqrt (show 0 ≤ -(27 * q ^ 2 - 4 * p ^ 3) by linarith)
      have : √3 * √(-(27 * q ^ 2 - 4 * p ^ 3)) * (√3 * √(-(27 * q ^ 2 - 4 * p ^ 3))) = (√3 * √3) * (√(-(27 * q ^ 2 - 4 * p ^ 3)) * √(-(27 * q ^ 2 - 4 * p ^ 3))) := by ring
      rw [this, a1, a2]
      ring
    obtain ⟨hcr, hci⟩ := arg_third (rkZ p q) hz (by rw [him]; positivity)
    have hc3 := cube_cpow (rkZ p q)
    unfold rkY
    dsimp only
    generalize hc : rkZ p q ^ (1 / 3 : ℂ) = c at *
    have hnc : Complex.normSq c = cr 2 ^ 2 * cr 3 * p := by
      have h6 : Complex.normSq c ^ 3 = (cr 2 ^ 2 * cr 3 * p) ^ 3 := by
        rw [← map_pow, hc3, hns]
        have : (cr 2 ^ 2 * cr 3 * p) ^ 3 = (cr 2 ^ 3) ^ 2 * cr 3 ^ 3 * p ^ 3 := by ring
        rw [this, c2, c3]
        ring
      exact (pow_left_inj₀ (Complex.normSq_nonneg c) (by positivity) (by norm_num)).mp h6
    have hnt : Complex.normSq ((-(I * ((√3 : ℝ) : ℂ)) + 1) * c) = 4 * (cr 2 ^ 2 * cr 3 * p) := by
      rw [map_mul, hnc]
      congr 1
      rw [Complex.normSq_apply]
      simp
      norm_num
    have htre : ((-(I * ((√3 : ℝ) : ℂ)) + 1) * c).re = c.re + √3 * c.im := by simp
    generalize (-(I * ((√3 : ℝ) : ℂ)) + 1) * c = t at *
    have hrt : 0 < t.re := by rw [htre]; positivity
    refine ⟨cr 2 * cr 3 / 12 * (cr 2 * (2 * t.re)), by positivity, ?_⟩
    have ht : t ≠ 0 := by rintro rfl; simp at hrt
    have hconj : ((8 * cr 3 * p : ℝ) : ℂ) / t = ((cr 2 : ℝ) : ℂ) * (starRingEnd ℂ) t := by
      rw [div_eq_iff ht, mul_assoc ((cr 2 : ℝ) : ℂ), mul_comm ((starRingEnd ℂ) t) t, Complex.mul_conj, hnt]
      rw [← Complex.ofReal_mul]
      congr 1
      linear_combination (-4 * cr 3 * p) * c2
    rw [hconj, ← mul_add, add_comm, Complex.add_conj]
    push_cast
    ring

/-- **C34.** At positive pressures and volumes above the covolume the closed form of `RK.solve_T` is the temperature with that pressure, the only one. -/
theorem C34_RK (R Tc a b P V : ℝ) (hR : 0 < R) (hTc : 0 < Tc) (ha : 0 < a) (hb : 0 < b) (hV : b < V) (hP : 0 < P) :
    0 < rkClosed R Tc a b P V ∧ ∀ T, 0 < T → (pressure R T b b 0 (a * √(Tc / T)) V = P ↔ T = rkClosed R Tc a b P V) := by
  have hV0 : 0 < V := by linarith
  have hVb : 0 < V - b := by linarith
  have hp : 0 < P * ((V - b) / R) := by positivity
  have hsT : 0 < √Tc := Real.sqrt_pos.mpr hTc
  have hq : 0 < a * √Tc * ((V - b) / R) / (V * (V + b)) := by positivity
  obtain ⟨y, hy, hY⟩ := rkY_real _ _ hp hq
  have hcub := rkY_cubic (P * ((V - b) / R)) (a * √Tc * ((V - b) / R) / (V * (V + b))) hp.ne'
  rw [hY] at hcub
  have hcub' : y ^ 3 = P * ((V - b) / R) * y + a * √Tc * ((V - b) / R) / (V * (V + b)) := by exact_mod_cast hcub
  have hT : rkClosed R Tc a b P V = y ^ 2 := by
    rw [rkClosed_eq R Tc a b P V hR hb hV, hY, ← Complex.ofReal_pow, Complex.ofReal_re]
  rw [hT]
  refine ⟨by positivity, ?_⟩
  have hpr : ∀ x, 0 < x → pressure R (x ^ 2) b b 0 (a * √(Tc / x ^ 2)) V = R * x ^ 2 / (V - b) - a * √Tc / (x * (V * (V + b))) := by
    intro x hx
    unfold pressure
    rw [Real.sqrt_div hTc.le, Real.sqrt_sq hx.le]
    have : V ^ 2 + b * V + 0 = V * (V + b) := by ring
    rw [this]
    field_simp
  have hsol : pressure R (y ^ 2) b b 0 (a * √(Tc / y ^ 2)) V = P := by
    rw [hpr y hy]
    field_simp at hcub' ⊢
    linear_combination hcub'
  intro T hT0
  constructor
  · intro h
    have hx : 0 < √T := Real.sqrt_pos.mpr hT0
    have hTx : T = √T ^ 2 := (Real.sq_sqrt hT0.le).symm
    have mono : ∀ x z : ℝ, 0 < x → x < z → R * x ^ 2 / (V - b) - a * √Tc / (x * (V * (V + b))) < R * z ^ 2 / (V - b) - a * √Tc / (z * (V * (V + b))) := by
      intro x z hx0 hxz
      have h1 : R * x ^ 2 / (V - b) < R * z ^ 2 / (V - b) := by
        apply div_lt_div_of_pos_right _ hVb
        exact mul_lt_mul_of_pos_left (pow_lt_pow_left₀ hxz hx0.le two_ne_zero) hR
      have h2 : a * √Tc / (z * (V * (V + b))) < a * √Tc / (x * (V * (V + b))) := by
        apply div_lt_div_of_pos_left (by positivity) (by positivity)
        exact mul_lt_mul_of_pos_right hxz (by positivity)
      linarith
    rw [hTx, hpr _ hx, ← hsol, hpr y hy] at h
    rcases lt_trichotomy (√T) y with hlt | heq | hgt
    · exact absurd h (ne_of_lt (mono _ _ hx hlt))
    · rw [hTx, heq]
    · exact absurd h (ne_of_gt (mono _ _ hy hgt))
  · rintro rfl
    exact hsol

/-- **C34.** At negative pressures the closed form is not a temperature and is never used. -/
theorem C34_RK_negative (R Tc a b P V : ℝ) (hR : 0 < R) (ha : 0 ≤ a) (hb : 0 < b) (hV : b < V) (hP : P < 0) (generic : Option ℝ) (chosen : Bool) :
    rkClosed R Tc a b P V < 0 ∧ rkSolveT generic chosen R Tc a b P V = generic := by
  have main : rkClosed R Tc a b P V < 0 := by
    rw [rkClosed_eq R Tc a b P V hR hb hV]
    have hV0 : 0 < V := by linarith
    have hVb : 0 < V - b := by linarith
    have hp : P * ((V - b) / R) < 0 := mul_neg_of_neg_of_pos hP (by positivity)
    have hq : 0 ≤ a * √Tc * ((V - b) / R) / (V * (V + b)) := by positivity
    generalize P * ((V - b) / R) = p at *
    generalize a * √Tc * ((V - b) / R) / (V * (V + b)) = q at *
    have e2 : (0 : ℝ) < cr 2 := cr_pos (by norm_num)
    have e3 : (0 : ℝ) < cr 3 := cr_pos (by norm_num)
    have hp3 : p ^ 3 < 0 := Odd.pow_neg (by decide) hp
    have hD : 0 ≤ 27 * q ^ 2 - 4 * p ^ 3 := by nlinarith [sq_nonneg q]
    have hd : ((27 * q ^ 2 - 4 * p ^ 3 : ℝ) : ℂ) ^ (1 / 2 : ℂ) = ((√(27 * q ^ 2 - 4 * p ^ 3) : ℝ) : ℂ) := by
      rw [Real.sqrt_eq_rpow, Complex.ofReal_cpow hD]
      norm_num
    have hzr : rkZ p q = ((√3 * √(27 * q ^ 2 - 4 * p ^ 3) - 9 * q : ℝ) : ℂ) := by
      unfold rkZ
      rw [hd]
      push_cast
      ring
    have hpos : 0 < √3 * √(27 * q ^ 2 - 4 * p ^ 3) - 9 * q := by
      rw [← Real.sqrt_mul (by norm_num), sub_pos, Real.lt_sqrt (by positivity)]
      nlinarith
    generalize √3 * √(27 * q ^ 2 - 4 * p ^ 3) - 9 * q = r at *
    have hc : rkZ p q ^ (1 / 3 : ℂ) = ((r ^ (1 / 3 : ℝ) : ℝ) : ℂ) := by
      rw [hzr, Complex.ofReal_cpow hpos.le]
      norm_num
    have hρ : 0 < r ^ (1 / 3 : ℝ) := Real.rpow_pos_of_pos hpos _
    generalize r ^ (1 / 3 : ℝ) = ρ at *
    have hY : rkY p q = ((cr 2 * cr 3 / 12 * (8 * cr 3 * p / (4 * ρ)) : ℝ) : ℂ) * (1 + I * ((√3 : ℝ) : ℂ)) + ((cr 2 * cr 3 / 12 * (cr 2 * ρ) : ℝ) : ℂ) * (1 - I * ((√3 : ℝ) : ℂ)) := by
      unfold rkY
      dsimp only
      rw [hc]
      have h := sqrt3C
      have hI := Complex.I_sq
      have hx : (-(I * ((√3 : ℝ) : ℂ)) + 1) * (1 + I * ((√3 : ℝ) : ℂ)) = 4 := by
        generalize ((√3 : ℝ) : ℂ) = w at *
        have : (-(I * w) + 1) * (1 + I * w) = 1 - I ^ 2 * w ^ 2 := by ring
        rw [this, h, hI]; norm_num
      have hx0 : (-(I * ((√3 : ℝ) : ℂ)) + 1) ≠ 0 := by
        intro h0; rw [h0] at hx; norm_num at hx
      have hρ' : (ρ : ℂ) ≠ 0 := by exact_mod_cast hρ.ne'
      have hinv : ((8 * cr 3 * p : ℝ) : ℂ) / ((-(I * ((√3 : ℝ) : ℂ)) + 1) * ρ) = (8 * cr 3 * p : ℝ) / (4 * ρ) * (1 + I * ((√3 : ℝ) : ℂ)) := by
        rw [div_eq_iff (mul_ne_zero hx0 hρ')]
        field_simp
        linear_combination (-(8 * cr 3 * p : ℝ) : ℂ) * hx
      rw [hinv]
      push_cast
      ring
    have hA : cr 2 * cr 3 / 12 * (8 * cr 3 * p / (4 * ρ)) < 0 := by
      apply mul_neg_of_pos_of_neg (by positivity)
      apply div_neg_of_neg_of_pos _ (by positivity)
      exact mul_neg_of_pos_of_neg (by positivity) hp
    have hB : 0 < cr 2 * cr 3 / 12 * (cr 2 * ρ) := by positivity
    rw [hY]
    generalize cr 2 * cr 3 / 12 * (8 * cr 3 * p / (4 * ρ)) = A at *
    generalize cr 2 * cr 3 / 12 * (cr 2 * ρ) = B at *
    have h3 := Real.mul_self_sqrt (show (0 : ℝ) ≤ 3 by norm_num)
    have : ((A * (1 + I * ((√3 : ℝ) : ℂ)) + B * (1 - I * ((√3 : ℝ) : ℂ))) ^ 2).re = (A + B) ^ 2 - (√3 * √3) * (A - B) ^ 2 := by
      rw [sq, Complex.mul_re]
      simp only [Complex.add_re, Complex.add_im, Complex.sub_re, Complex.sub_im, Complex.mul_re, Complex.mul_im, Complex.ofReal_re, Complex.ofReal_im, Complex.I_re, Complex.I_im, Complex.one_re, Complex.one_im]
      ring
    rw [this, h3]
    nlinarith [mul_pos_of_neg_of_neg hA (neg_neg_of_pos hB), sq_nonneg (A + B)]
  refine ⟨main, ?_⟩
  have hV0 : 0 < V := by linarith
  have hVb : 0 < V - b := by linarith
  have hp : P * ((V - b) / R) ≠ 0 := mul_ne_zero hP.ne (by positivity)
  unfold rkSolveT
  rw [rkBase_eq R Tc a b P V hR hb hV, if_neg (rkZ_ne _ _ hp)]
  split_ifs with h1 h2
  · rfl
  · linarith
  · rfl

/-- **C34.** At positive pressures the general solver is not needed, unless the temperature is not above one thousandth. -/
theorem C34_RK_direct (generic : Option ℝ) (R Tc a b P V : ℝ) (hR : 0 < R) (hb : 0 < b) (hV : b < V) (hP : 0 < P) (h : 1 / 1000 < rkClosed R Tc a b P V) :
    rkSolveT generic false R Tc a b P V = some (rkClosed R Tc a b P V) ∧ rkSolveT generic true R Tc a b P V = generic := by
  have hVb : 0 < V - b := by linarith
  have hp : P * ((V - b) / R) ≠ 0 := by positivity
  unfold rkSolveT
  refine ⟨?_, by simp⟩
  rw [if_neg (by simp), rkBase_eq R Tc a b P V hR hb hV, if_neg (rkZ_ne _ _ hp), if_pos h]

/-- **C34 fails.** At zero pressure there is no result, whatever the general solver finds: a solution which is not used divides by zero. -/
theorem C34_RK_zero_fails (generic : Option ℝ) (R Tc a b V : ℝ) (hR : 0 < R) (ha : 0 ≤ a) (hb : 0 < b) (hV : b < V) : rkSolveT generic false R Tc a b 0 V = none := by
  have hV0 : 0 < V := by linarith
  have hVb : 0 < V - b := by linarith
  have hq : 0 ≤ a * √Tc * ((V - b) / R) / (V * (V + b)) := by positivity
  unfold rkSolveT
  rw [if_neg (by simp), rkBase_eq R Tc a b 0 V hR hb hV, if_pos]
  generalize a * √Tc * ((V - b) / R) / (V * (V + b)) = q at *
  have hD : 0 ≤ 27 * q ^ 2 - 4 * (0 * ((V - b) / R)) ^ 3 := by
    have := sq_nonneg q
    simp
    positivity
  have hs : √3 * √(27 * q ^ 2 - 4 * (0 * ((V - b) / R)) ^ 3) = 9 * q := by
    rw [← Real.sqrt_mul (by norm_num), show 3 * (27 * q ^ 2 - 4 * (0 * ((V - b) / R)) ^ 3) = (9 * q) ^ 2 by ring, Real.sqrt_sq (by positivity)]
  unfold rkZ
  rw [show ((27 * q ^ 2 - 4 * (0 * ((V - b) / R)) ^ 3 : ℝ) : ℂ) ^ (1 / 2 : ℂ) = ((√(27 * q ^ 2 - 4 * (0 * ((V - b) / R)) ^ 3) : ℝ) : ℂ) by
    rw [Real.sqrt_eq_rpow, Complex.ofReal_cpow hD]; norm_num]
  rw [← Complex.ofReal_mul, hs, sub_self]

/-- A temperature with zero pressure, not found. -/
example : pressure 1 1 1 1 0 (6 * √(1 / 1)) 2 = 0 ∧ rkSolveT (some 1) false 1 1 6 1 0 2 = none :=
  ⟨by unfold pressure; norm_num, C34_RK_zero_fails _ 1 1 6 1 2 (by norm_num) (by norm_num) (by norm_num) (by norm_num)⟩

/-- **C34.** `RK.solve_T` returns a temperature with the given pressure if the general solver does. -/
theorem C34_RK_solve (generic : Option ℝ) (chosen : Bool) (R Tc a b P V T : ℝ) (hR : 0 < R) (hTc : 0 < Tc) (ha : 0 < a) (hb : 0 < b) (hV : b < V) (hP : P ≠ 0)
    (hg : ∀ T, generic = some T → pressure R T b b 0 (a * √(Tc / T)) V = P) (h : rkSolveT generic chosen R Tc a b P V = some T) : pressure R T b b 0 (a * √(Tc / T)) V = P := by
  rcases lt_or_gt_of_ne hP with hneg | hpos
  · rw [(C34_RK_negative R Tc a b P V hR ha.le hb hV hneg generic chosen).2] at h
    exact hg T h
  · unfold rkSolveT at h
    split_ifs at h with h1 h0 h2
    · exact hg T h
    · cases h
      obtain ⟨h3, h4⟩ := C34_RK R Tc a b P V hR hTc ha hb hV hpos
      exact (h4 _ h3).mpr rfl
    · exact hg T h

example : ∃ T, rkSolveT none false 1 1 6 1 1 2 = some T ∧ pressure 1 T 1 1 0 (6 * √(1 / T)) 2 = 1 := by
  obtain ⟨h3, h4⟩ := C34_RK 1 1 6 1 1 2 (by norm_num) (by norm_num) (by norm_num) (by norm_num) (by norm_num) (by norm_num)
  refine ⟨rkClosed 1 1 6 1 1 2, (C34_RK_direct none 1 1 6 1 1 2 (by norm_num) (by norm_num) (by norm_num) (by norm_num) ?_).1, (h4 _ h3).mpr rfl⟩
  by_contra hn
  push Not at hn
  have hp := (h4 _ h3).mpr rfl
  unfold pressure at hp
  have : 0 ≤ (√(rkClosed 1 1 6 1 1 2))⁻¹ := by positivity
  norm_num at hp
  linarith

end Verif.SolveT
