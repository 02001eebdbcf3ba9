import Verif.Eos.AlphaFns

/-!
# C33: the generalized Twu alpha function

`thermo/eos_alpha_functions.py`, `TWU_a_alpha_common` (1142-1253), used by `TwuSRK95_a_alpha` and `TwuPR95_a_alpha`
(2307-2490), which call it per component. Reals instead of floats. `method` is one of the two accepted values.
-/

namespace Verif.Twu

open Verif

noncomputable section

/-- The six constants of one branch. -/
structure Coef where
  L0 : ℝ
  M0 : ℝ
  N0 : ℝ
  L1 : ℝ
  M1 : ℝ
  N1 : ℝ

/-- Lines 1189-1204: the constants below and from the critical temperature on. -/
def subC : Bool → Coef
  | true => ⟨0.125283, 0.911807, 1.948150, 0.511614, 0.784054, 2.812520⟩
  | false => ⟨0.141599, 0.919422, 2.496441, 0.500315, 0.799457, 3.291790⟩
@[inherit_doc subC] def supC : Bool → Coef
  | true => ⟨0.401219, 4.963070, -0.2, 0.024955, 1.248089, -8⟩
  | false => ⟨0.441411, 6.500018, -0.20, 0.032580, 1.289098, -8⟩
/-- The choice made at lines 1190 and 1197; `pr` is `method == 'PR'`. -/
def coef (pr : Bool) (Tr : ℝ) : Coef := if Tr < 1 then subC pr else supC pr

/-- Lines 1180-1187: very low reduced temperatures are mapped into `[4e-3, 5e-3)`. -/
def remap (Tr : ℝ) : ℝ := if Tr < 5e-3 then 4e-3 + (Tr - 0) * 1e-3 / 5e-3 else Tr

/-- Lines 1207-1209. -/
def alpha (c : Coef) (omega Tr : ℝ) : ℝ :=
  let alpha0 := Tr ^ (c.N0 * (c.M0 - 1)) * Real.exp (c.L0 * (1 - Tr ^ (c.N0 * c.M0)))
  let alpha1 := Tr ^ (c.N1 * (c.M1 - 1)) * Real.exp (c.L1 * (1 - Tr ^ (c.N1 * c.M1)))
  alpha0 + omega * (alpha1 - alpha0)

/-- Lines 1206-1213, `full=False`. -/
def pure (pr : Bool) (Tc omega a T : ℝ) : ℝ :=
  let Tr := remap (T / Tc)
  let a_alpha := a * alpha (coef pr Tr) omega Tr
  if a_alpha < 1e-3 then 1e-3 else a_alpha

/-- Lines 1215-1247 with the constants, the reduced temperature and the temperature already fixed. -/
def core (c : Coef) (omega a x0 T : ℝ) : V3 :=
  let x1 := c.M0 - 1
  let x2 := c.N0 * x1
  let x3 := x0 ^ x2
  let x4 := c.M0 * c.N0
  let x5 := x0 ^ x4
  let x6 := Real.exp (-c.L0 * (x5 - 1))
  let x7 := x3 * x6
  let x8 := c.M1 - 1
  let x9 := c.N1 * x8
  let x10 := x0 ^ x9
  let x11 := c.M1 * c.N1
  let x12 := x0 ^ x11
  let x13 := x2 * x7
  let x14 := c.L0 * c.M0 * c.N0 * x3 * x5 * x6
  let x15 := x13 - x14
  let x16 := Real.exp (-c.L1 * (x12 - 1))
  let x17 := -c.L1 * c.M1 * c.N1 * x10 * x12 * x16 + x10 * x16 * x9 - x13 + x14
  let x18 := c.N0 * c.N0
  let x19 := x18 * x3 * x6
  let x20 := x1 ^ 2 * x19
  let x21 := c.M0 ^ 2
  let x22 := c.L0 * x18 * x3 * x5 * x6
  let x23 := x21 * x22
  let x24 := 2 * c.M0 * x1 * x22
  let x25 := c.L0 ^ 2 * x0 ^ (2 * x4) * x19 * x21
  let x26 := c.N1 ^ 2
  let x27 := x10 * x16 * x26
  let x28 := c.M1 ^ 2
  let x29 := c.L1 * x10 * x12 * x16 * x26
  ⟨a * (-omega * (-x10 * Real.exp (c.L1 * (-x12 + 1)) + x3 * Real.exp (c.L0 * (-x5 + 1))) + x7),
    a * (omega * x17 + x15) / T,
    a * (-(omega * (-c.L1 ^ 2 * x0 ^ (2 * x11) * x27 * x28 + 2 * c.M1 * x29 * x8 + x17 + x20 - x23 - x24 + x25
      - x27 * x8 ^ 2 + x28 * x29) + x15 - x20 + x23 + x24 - x25) / T ^ 2)⟩

/-- Lines 1180-1253, `full=True`: below the remapping limit `T` is replaced by `Tc*Tr` (1187); values below the
floor are replaced, with zero derivatives (1248-1250). -/
def full (pr : Bool) (Tc omega a T : ℝ) : V3 :=
  let Tr := remap (T / Tc)
  let T' := if T / Tc < 5e-3 then Tc * Tr else T
  let r := core (coef pr Tr) omega a Tr T'
  if r.v < 1e-3 then ⟨1e-3, 0, 0⟩ else r

variable {Tc T : ℝ}

theorem core_value (c : Coef) (omega a x0 T : ℝ) : (core c omega a x0 T).v = a * alpha c omega x0 := by
  have e : ∀ l x : ℝ, Real.exp (-l * (x - 1)) = Real.exp (l * (1 - x)) := fun l x => by congr 1; ring
  have e' : ∀ l x : ℝ, Real.exp (l * (-x + 1)) = Real.exp (l * (1 - x)) := fun l x => by congr 1; ring
  simp only [core, alpha, e, e', mul_comm c.M0 c.N0, mul_comm c.M1 c.N1]
  ring

theorem rpow_two_mul {x : ℝ} (hx : 0 < x) (p : ℝ) : x ^ (2 * p) = (x ^ p) ^ 2 := by
  rw [← Real.rpow_natCast, ← Real.rpow_mul hx.le]; congr 1; push_cast; ring

set_option maxHeartbeats 2000000 in
/-- The formulas without remapping and floor are exact for all constants. -/
theorem core_exact (c : Coef) (omega a : ℝ) (hTc : 0 < Tc) (hT : 0 < T) :
    Exact (fun t => a * alpha c omega (t / Tc)) (fun t => core c omega a (t / Tc) t) T := by
  have e : ∀ l x : ℝ, Real.exp (-l * (x - 1)) = Real.exp (l * (1 - x)) := fun l x => by congr 1; ring
  refine Exact.of_pos (fun T hT => core_value ..) (fun T hT => ?_) (fun T hT => ?_) hT
  · have h0 := hasDerivAt_rpowTr hTc hT (c.N0 * (c.M0 - 1))
    have h1 := hasDerivAt_rpowTr hTc hT (c.N1 * (c.M1 - 1))
    have h2 := hasDerivAt_rpowTr hTc hT (c.N0 * c.M0)
    have h3 := hasDerivAt_rpowTr hTc hT (c.N1 * c.M1)
    derive [core, alpha, e, mul_comm c.M0 c.N0, mul_comm c.M1 c.N1]
    generalize (T / Tc) ^ (c.N0 * (c.M0 - 1)) = A0 at *
    generalize (T / Tc) ^ (c.N1 * (c.M1 - 1)) = A1 at *
    generalize (T / Tc) ^ (c.N0 * c.M0) = B0 at *
    generalize (T / Tc) ^ (c.N1 * c.M1) = B1 at *
    generalize Real.exp (c.L0 * (1 - B0)) = E0 at *
    generalize Real.exp (c.L1 * (1 - B1)) = E1 at *
    field_simp
    ring
  · have h0 := hasDerivAt_rpowTr hTc hT (c.N0 * (c.M0 - 1))
    have h1 := hasDerivAt_rpowTr hTc hT (c.N1 * (c.M1 - 1))
    have h2 := hasDerivAt_rpowTr hTc hT (c.N0 * c.M0)
    have h3 := hasDerivAt_rpowTr hTc hT (c.N1 * c.M1)
    derive [core, alpha, e, mul_comm c.M0 c.N0, mul_comm c.M1 c.N1]
    rw [rpow_two_mul (div_pos hT hTc), rpow_two_mul (div_pos hT hTc)]
    generalize (T / Tc) ^ (c.N0 * (c.M0 - 1)) = A0 at *
    generalize (T / Tc) ^ (c.N1 * (c.M1 - 1)) = A1 at *
    generalize (T / Tc) ^ (c.N0 * c.M0) = B0 at *
    generalize (T / Tc) ^ (c.N1 * c.M1) = B1 at *
    generalize Real.exp (c.L0 * (1 - B0)) = E0 at *
    generalize Real.exp (c.L1 * (1 - B1)) = E1 at *
    field_simp
    ring

/-- **C33.** The two modes of `TWU_a_alpha_common` return the same value, on every branch. -/
theorem C33_TWU_value (pr : Bool) (Tc omega a T : ℝ) : (full pr Tc omega a T).v = pure pr Tc omega a T := by
  unfold full pure
  simp only [core_value]
  split <;> simp [core_value]

example : (full true 300 0.1 2 250).v = pure true 300 0.1 2 250 := C33_TWU_value ..

/-- `full` and `pure` above the remapping limit in terms of one set of constants. -/
theorem eq_core {pr : Bool} {c : Coef} {omega a t : ℝ} (h1 : 5e-3 ≤ t / Tc) (h2 : coef pr (t / Tc) = c)
    (h3 : 1e-3 ≤ a * alpha c omega (t / Tc)) :
    pure pr Tc omega a t = a * alpha c omega (t / Tc) ∧ full pr Tc omega a t = core c omega a (t / Tc) t := by
  have hr : remap (t / Tc) = t / Tc := by unfold remap; rw [if_neg (not_lt.2 h1)]
  unfold pure full
  simp only [hr, h2, core_value, if_neg (not_lt.2 h1), if_neg (not_lt.2 h3), and_self]

theorem continuousAt_alpha (c : Coef) (omega a : ℝ) (hTc : 0 < Tc) (hT : 0 < T) :
    ContinuousAt (fun t => a * alpha c omega (t / Tc)) T := (core_exact c omega a hTc hT).first.continuousAt

/-- **C33.** `TWU_a_alpha_common` above the remapping limit, off the critical temperature and above the floor. -/
theorem C33_TWU {pr : Bool} {omega a : ℝ} (hTc : 0 < Tc) (hlo : 5e-3 < T / Tc) (hne : T ≠ Tc)
    (hfl : 1e-3 < a * alpha (coef pr (T / Tc)) omega (T / Tc)) :
    Exact (fun t => pure pr Tc omega a t) (fun t => full pr Tc omega a t) T := by
  have hT : 0 < T := by
    have : 0 < T / Tc := lt_trans (by norm_num) hlo
    exact (div_pos_iff_of_pos_right hTc).1 this
  have hc : ∀ᶠ t in nhds T, coef pr (t / Tc) = coef pr (T / Tc) := by
    rcases lt_or_gt_of_ne hne with h | h
    · filter_upwards [eventually_lt_nhds h] with t ht
      unfold coef
      rw [if_pos ((div_lt_one hTc).2 ht), if_pos ((div_lt_one hTc).2 h)]
    · filter_upwards [eventually_gt_nhds h] with t ht
      unfold coef
      rw [if_neg (not_lt.2 ((one_le_div hTc).2 ht.le)), if_neg (not_lt.2 ((one_le_div hTc).2 h.le))]
  have hcont : ContinuousAt (fun t => t / Tc) T := by fun_prop
  refine AlphaFns.exact_congr (core_exact (coef pr (T / Tc)) omega a hTc hT) ?_ ?_
  · filter_upwards [hc, hcont.eventually (eventually_gt_nhds hlo),
      (continuousAt_alpha _ omega a hTc hT).eventually (eventually_gt_nhds hfl)] with t h1 h2 h3
    exact (eq_core h2.le h1 h3.le).1
  · exact (eq_core hlo.le rfl hfl.le).2

/-- Non-trivial instance: at `ω = 0` and below the critical temperature the function is above one. -/
theorem alpha_zero_gt {x : ℝ} (hx : 0 < x) (h1 : x < 1) (pr : Bool) : 1 < alpha (subC pr) 0 x := by
  have key : ∀ L M N : ℝ, 0 < L → M < 1 → 0 < M → 0 < N →
      1 < x ^ (N * (M - 1)) * Real.exp (L * (1 - x ^ (N * M))) := by
    intro L M N hL hM hM0 hN
    have a1 : 1 < x ^ (N * (M - 1)) := Real.one_lt_rpow_of_pos_of_lt_one_of_neg hx h1 (by nlinarith)
    have a2 : x ^ (N * M) < 1 := Real.rpow_lt_one hx.le h1 (by positivity)
    have a3 : 1 < Real.exp (L * (1 - x ^ (N * M))) := Real.one_lt_exp_iff.2 (by nlinarith)
    nlinarith
  cases pr <;> simp only [alpha, subC, zero_mul, add_zero] <;> exact key _ _ _ (by norm_num) (by norm_num)
    (by norm_num) (by norm_num)

example : Exact (fun t => pure true 300 0 2 t) (fun t => full true 300 0 2 t) 250 := by
  refine C33_TWU (by norm_num) (by norm_num) (by norm_num) ?_
  have := alpha_zero_gt (x := 250 / 300) (by norm_num) (by norm_num) true
  unfold coef
  rw [if_pos (by norm_num)]
  linarith

/-- **C33.** Below the floor the value is constant and the derivatives are zero. -/
theorem C33_TWU_floor {pr : Bool} {omega a : ℝ} (hTc : 0 < Tc) (hlo : 5e-3 < T / Tc) (hne : T ≠ Tc)
    (hfl : a * alpha (coef pr (T / Tc)) omega (T / Tc) < 1e-3) :
    Exact (fun t => pure pr Tc omega a t) (fun t => full pr Tc omega a t) T := by
  have hT : 0 < T := by
    have : 0 < T / Tc := lt_trans (by norm_num) hlo
    exact (div_pos_iff_of_pos_right hTc).1 this
  have hc : ∀ᶠ t in nhds T, coef pr (t / Tc) = coef pr (T / Tc) := by
    rcases lt_or_gt_of_ne hne with h | h
    · filter_upwards [eventually_lt_nhds h] with t ht
      unfold coef
      rw [if_pos ((div_lt_one hTc).2 ht), if_pos ((div_lt_one hTc).2 h)]
    · filter_upwards [eventually_gt_nhds h] with t ht
      unfold coef
      rw [if_neg (not_lt.2 ((one_le_div hTc).2 ht.le)), if_neg (not_lt.2 ((one_le_div hTc).2 h.le))]
  have hcont : ContinuousAt (fun t => t / Tc) T := by fun_prop
  have hr : ∀ t, 5e-3 < t / Tc → remap (t / Tc) = t / Tc := fun t h => by unfold remap; rw [if_neg (not_lt.2 h.le)]
  refine AlphaFns.exact_congr (f := fun _ => 1e-3) (F := fun _ => ⟨1e-3, 0, 0⟩) ?_ ?_ ?_
  · refine Exact.of_near rfl (Filter.Eventually.of_forall fun t => hasDerivAt_const _ _) (hasDerivAt_const _ _)
  · filter_upwards [hc, hcont.eventually (eventually_gt_nhds hlo),
      (continuousAt_alpha _ omega a hTc hT).eventually (eventually_lt_nhds hfl)] with t h1 h2 h3
    unfold pure
    simp only [hr t h2, h1]
    exact if_pos h3
  · unfold full
    simp only [hr T hlo, core_value]
    exact if_pos hfl

example : Exact (fun t => pure true 300 0 (-2) t) (fun t => full true 300 0 (-2) t) 250 := by
  refine C33_TWU_floor (by norm_num) (by norm_num) (by norm_num) ?_
  have := alpha_zero_gt (x := 250 / 300) (by norm_num) (by norm_num) true
  unfold coef
  rw [if_pos (by norm_num)]
  linarith

/-- **C33.** Below `Tr = 0.005` the reported derivatives belong to the remapped temperature: the true first
derivative of the returned value is a fifth of the reported one, the true second derivative a twenty-fifth. -/
theorem C33_TWU_low {pr : Bool} {omega a : ℝ} (hTc : 0 < Tc) (hT : 0 < T) (hlo : T / Tc < 5e-3)
    (hfl : 1e-3 < a * alpha (subC pr) omega (4e-3 + T / Tc / 5)) :
    HasDerivAt (fun t => pure pr Tc omega a t) ((full pr Tc omega a T).d / 5) T
      ∧ HasDerivAt (deriv fun t => pure pr Tc omega a t) ((full pr Tc omega a T).d2 / 25) T := by
  have hTr : 0 < T / Tc := div_pos hT hTc
  have hco : ∀ x : ℝ, x < 1 → coef pr x = subC pr := fun x hx => by unfold coef; rw [if_pos hx]
  have hrm : ∀ x : ℝ, x < 5e-3 → remap x = 4e-3 + x / 5 := fun x hx => by
    unfold remap; rw [if_pos hx]; norm_num; ring
  -- the composed function
  set g : ℝ → ℝ := fun u => a * alpha (subC pr) omega (u / Tc) with hg
  set m : ℝ → ℝ := fun t => 4e-3 * Tc + t / 5 with hm
  have hmd : ∀ t, HasDerivAt m (1 / 5) t := fun t => by
    have := ((hasDerivAt_id' t).div_const 5).const_add (4e-3 * Tc)
    exact this
  have hmT : ∀ t, m t / Tc = 4e-3 + t / Tc / 5 := fun t => by simp only [hm]; field_simp
  have hmpos : ∀ t, 0 < t → 0 < m t := fun t ht => by simp only [hm]; positivity
  have hcont : ContinuousAt (fun t => t / Tc) T := by fun_prop
  have hfull : full pr Tc omega a T = core (subC pr) omega a (m T / Tc) (m T) := by
    unfold full
    simp only [hrm _ hlo, if_pos hlo]
    rw [hco _ (by linarith), ← hmT, show Tc * (m T / Tc) = m T by field_simp]
    simp only [core_value]
    rw [if_neg (by rw [hmT]; exact not_lt.2 hfl.le)]
  have hpure : ∀ᶠ t in nhds T, pure pr Tc omega a t = g (m t) := by
    have hca : ContinuousAt (fun t => g (m t)) T :=
      ContinuousAt.comp (g := g) (f := m) ((core_exact (subC pr) omega a hTc (hmpos T hT)).first.continuousAt)
        (hmd T).continuousAt
    have hgT : 1e-3 < g (m T) := by simp only [hg, hmT]; exact hfl
    filter_upwards [hcont.eventually (eventually_lt_nhds hlo), hca.eventually (eventually_gt_nhds hgT)] with t h1 h2
    unfold pure
    simp only [hrm _ h1]
    rw [hco _ (by linarith), ← hmT, if_neg (not_lt.2 h2.le)]
  have hd1 : ∀ t, 0 < t → HasDerivAt (fun t => g (m t)) ((core (subC pr) omega a (m t / Tc) (m t)).d / 5) t := by
    intro t ht
    have := (core_exact (subC pr) omega a hTc (hmpos t ht)).first.comp t (hmd t)
    exact this.congr_deriv (by ring)
  have hd2 : HasDerivAt (fun t => (core (subC pr) omega a (m t / Tc) (m t)).d / 5)
      ((core (subC pr) omega a (m T / Tc) (m T)).d2 / 25) T := by
    have h := (core_exact (subC pr) omega a hTc (hmpos T hT)).second
    have h' : HasDerivAt (fun u => (core (subC pr) omega a (u / Tc) u).d) (core (subC pr) omega a (m T / Tc) (m T)).d2
        (m T) := by
      refine h.congr_of_eventuallyEq ?_
      filter_upwards [eventually_gt_nhds (hmpos T hT)] with u hu
      exact (core_exact (subC pr) omega a hTc hu).first.deriv.symm
    have := (h'.comp T (hmd T)).div_const 5
    exact this.congr_deriv (by ring)
  rw [hfull]
  refine ⟨(hd1 T hT).congr_of_eventuallyEq hpure, ?_⟩
  refine hd2.congr_of_eventuallyEq ?_
  have hp2 := hpure.eventually_nhds
  filter_upwards [hp2, eventually_gt_nhds hT] with t h1 h2
  rw [Filter.EventuallyEq.deriv_eq h1]
  exact (hd1 t h2).deriv

/-- **C33.** So the derivative is wrong there: for every `a > 0.001` at `ω = 0` the reported value is not the
derivative of the returned value. -/
theorem C33_TWU_low_fails {pr : Bool} {a : ℝ} (ha : 1e-3 < a) (hTc : 0 < Tc) (hT : 0 < T) (hlo : T / Tc < 5e-3) :
    ¬ HasDerivAt (fun t => pure pr Tc 0 a t) (full pr Tc 0 a T).d T := by
  intro h
  have hTr : 0 < T / Tc := div_pos hT hTc
  have hx : 0 < 4e-3 + T / Tc / 5 := by positivity
  have hx1 : 4e-3 + T / Tc / 5 < 1 := by linarith
  have h1 := alpha_zero_gt hx hx1 pr
  have hfl : 1e-3 < a * alpha (subC pr) 0 (4e-3 + T / Tc / 5) := by nlinarith
  have h2 := (C33_TWU_low (omega := 0) hTc hT hlo hfl).1
  have h3 := h.unique h2
  have hz : (full pr Tc 0 a T).d = 0 := by linarith
  have hrm : remap (T / Tc) = 4e-3 + T / Tc / 5 := by unfold remap; rw [if_pos hlo]; norm_num; ring
  have hco : coef pr (4e-3 + T / Tc / 5) = subC pr := by unfold coef; rw [if_pos hx1]
  have hd : (full pr Tc 0 a T).d = (core (subC pr) 0 a (4e-3 + T / Tc / 5) (Tc * (4e-3 + T / Tc / 5))).d := by
    unfold full
    simp only [hrm, if_pos hlo, hco, core_value]
    rw [if_neg (not_lt.2 hfl.le)]
  rw [hd] at hz
  have key : (core (subC pr) 0 a (4e-3 + T / Tc / 5) (Tc * (4e-3 + T / Tc / 5))).d < 0 := by
    generalize 4e-3 + T / Tc / 5 = x at *
    have gen : ∀ L M N : ℝ, 0 < L → M < 1 → 0 < M → 0 < N → ∀ y z e : ℝ, 0 < y → 0 < z → 0 < e →
        a * (N * (M - 1) * (y * e) - L * M * N * y * z * e) / (Tc * x) < 0 := by
      intro L M N hL hM hM0 hN y z e hy hz he
      refine div_neg_of_neg_of_pos ?_ (by positivity)
      have : N * (M - 1) * (y * e) < 0 := mul_neg_of_neg_of_pos (by nlinarith) (by positivity)
      have : 0 < L * M * N * y * z * e := by positivity
      nlinarith
    cases pr <;> simp only [core, subC, zero_mul, zero_add] <;>
      exact gen _ _ _ (by norm_num) (by norm_num) (by norm_num) (by norm_num) _ _ _
        (Real.rpow_pos_of_pos hx _) (Real.rpow_pos_of_pos hx _) (Real.exp_pos _)
  exact key.ne hz

example := C33_TWU_low_fails (pr := true) (a := 2) (Tc := 300) (T := 1) (by norm_num) (by norm_num) (by norm_num)
  (by norm_num)

/-- **C33.** At the critical temperature the two sets of constants give different slopes, so the attraction is not
differentiable there (shown for `ω = 0`, both methods). -/
theorem C33_TWU_critical_fails {pr : Bool} {a : ℝ} (ha : 1e-3 < a) (hTc : 0 < Tc) (D : ℝ) :
    ¬ HasDerivAt (fun t => pure pr Tc 0 a t) D Tc := by
  intro h
  have hone : Tc / Tc = 1 := div_self hTc.ne'
  have hal : ∀ c, alpha c 0 1 = 1 := fun c => by simp [alpha]
  have hval : pure pr Tc 0 a Tc = a := by
    have hr : remap 1 = 1 := by unfold remap; rw [if_neg (by norm_num)]
    unfold pure
    simp only [hone, hr, hal, mul_one]
    rw [if_neg (not_lt.2 ha.le)]
  have hcont : ContinuousAt (fun t => t / Tc) Tc := by fun_prop
  have near : ∀ c : Coef, ∀ᶠ t in nhds Tc, 5e-3 ≤ t / Tc ∧ 1e-3 ≤ a * alpha c 0 (t / Tc) := by
    intro c
    filter_upwards [hcont.eventually (eventually_gt_nhds (show (5e-3 : ℝ) < Tc / Tc by rw [hone]; norm_num)),
      (continuousAt_alpha c 0 a hTc hTc).eventually (eventually_gt_nhds (show 1e-3 < a * alpha c 0 (Tc / Tc) by
        rw [hone, hal, mul_one]; exact ha))] with t h1 h2
    exact ⟨h1.le, h2.le⟩
  have e1 : HasDerivWithinAt (fun t => pure pr Tc 0 a t) (core (subC pr) 0 a (Tc / Tc) Tc).d (Set.Iio Tc) Tc := by
    refine (core_exact (subC pr) 0 a hTc hTc).first.hasDerivWithinAt.congr_of_eventuallyEq ?_ ?_
    · filter_upwards [self_mem_nhdsWithin, nhdsWithin_le_nhds (near (subC pr))] with t h1 h2
      refine (eq_core h2.1 ?_ h2.2).1
      unfold coef
      rw [if_pos ((div_lt_one hTc).2 h1)]
    · rw [hval, hone, hal, mul_one]
  have e2 : HasDerivWithinAt (fun t => pure pr Tc 0 a t) (core (supC pr) 0 a (Tc / Tc) Tc).d (Set.Ioi Tc) Tc := by
    refine (core_exact (supC pr) 0 a hTc hTc).first.hasDerivWithinAt.congr_of_eventuallyEq ?_ ?_
    · filter_upwards [self_mem_nhdsWithin, nhdsWithin_le_nhds (near (supC pr))] with t h1 h2
      refine (eq_core h2.1 ?_ h2.2).1
      unfold coef
      rw [if_neg (not_lt.2 ((one_le_div hTc).2 (Set.mem_Ioi.1 h1).le))]
    · rw [hval, hone, hal, mul_one]
  have u1 := (uniqueDiffWithinAt_Iio Tc).eq_deriv _ e1 h.hasDerivWithinAt
  have u2 := (uniqueDiffWithinAt_Ioi Tc).eq_deriv _ e2 h.hasDerivWithinAt
  rw [← u2, hone] at u1
  have ha' : a ≠ 0 := by intro h; rw [h] at ha; norm_num at ha
  cases pr <;> simp only [core, subC, supC, Real.one_rpow, sub_self, mul_zero, Real.exp_zero, zero_mul, zero_add,
      mul_one] at u1 <;>
    · rw [div_left_inj' hTc.ne'] at u1
      have := mul_left_cancel₀ ha' u1
      norm_num at this

example := C33_TWU_critical_fails (pr := false) (a := 2) (Tc := 300) (by norm_num) (by norm_num) 0

/-- The attraction function as documented (`eos.py` 10745-10765, 10840-10861), with its twelve constants. -/
def documented (L0 M0 N0 L1 M1 N1 omega Tr : ℝ) : ℝ :=
  (1 - omega) * (Tr ^ (N0 * (M0 - 1)) * Real.exp (L0 * (1 - Tr ^ (N0 * M0))))
    + omega * (Tr ^ (N1 * (M1 - 1)) * Real.exp (L1 * (1 - Tr ^ (N1 * M1))))

/-- **C33.** The constants used for TWUPR and TWUSRK below and above the critical temperature are the documented ones. -/
theorem C33_TWU_documented (omega Tr : ℝ) :
    (Tr < 1 → alpha (coef true Tr) omega Tr
        = documented 0.125283 0.911807 1.948150 0.511614 0.784054 2.812520 omega Tr
      ∧ alpha (coef false Tr) omega Tr
        = documented 0.141599 0.919422 2.496441 0.500315 0.799457 3.291790 omega Tr)
    ∧ (1 < Tr → alpha (coef true Tr) omega Tr
        = documented 0.401219 4.963070 (-0.2) 0.024955 1.248089 (-8) omega Tr
      ∧ alpha (coef false Tr) omega Tr
        = documented 0.441411 6.500018 (-0.2) 0.032580 1.289098 (-8) omega Tr) := by
  unfold coef documented alpha
  refine ⟨fun h => ?_, fun h => ?_⟩
  · rw [if_pos h, if_pos h]
    simp only [subC]
    constructor <;> ring
  · rw [if_neg (not_lt.2 h.le), if_neg (not_lt.2 h.le)]
    simp only [supC]
    constructor <;> ring

example : (0.7 : ℝ) < 1 ∧ (1 : ℝ) < 1.2 := by norm_num

end

end Verif.Twu
