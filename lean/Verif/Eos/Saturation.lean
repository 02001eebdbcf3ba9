import Verif.Eos.DerivProps
import Verif.Eos.Translation
import Mathlib.Analysis.Complex.ExponentialBounds

/-!
# C58: saturation properties of pure substances

`thermo/eos.py`: `GCEOS.Psat` without polishing (2917-2956), `dPsat_dT` (3128-3189), `phi_sat` (3226-3236), `dphi_sat_dT`
(3262-3273), `Hvap` (3388-3395).

The attraction `alpha` is a function of temperature with a derivative. The correlation coefficients of a class are
lists given as parameters. Not modelled: the solvers of the polished branch, the underflow and overflow branches
of the exponential.
-/

namespace Verif.Saturation

open Verif.Cubic Verif.Departure Filter Topology

/-! ### The correlation -/

/-- `horner`: coefficients from the highest power down. -/
def horner (cs : List ℝ) (x : ℝ) : ℝ := cs.foldl (fun y c => y * x + c) 0

/-- The loop of `dPsat_dT` (3177-3180): value and slope. -/
def hornerBoth (cs : List ℝ) (x : ℝ) : ℝ × ℝ := cs.foldl (fun s c => (x * s.1 + c, x * s.2 + s.1)) (0, 0)

/-- `polyder(coeffs[::-1])[::-1]` (7461, 9167, 9482, 9806): coefficients of the derivative. -/
def polyder : List ℝ → List ℝ
  | [] => []
  | [_] => []
  | c :: d :: cs => c * ((d :: cs).length : ℝ) :: polyder (d :: cs)

/-- Selection of the coefficient list (2942-2946, 3174-3178): the first range above `x`, the last one if there is none. -/
noncomputable def pick (x : ℝ) : List (ℝ × List ℝ) → List ℝ
  | [] => []
  | [(_, cs)] => cs
  | (r, cs) :: l :: rest => if x < r then cs else pick x (l :: rest)

/-- A class of equations as far as the correlation is concerned. -/
structure Corr where
  /-- critical temperature -/
  Tc : ℝ
  /-- critical pressure -/
  Pc : ℝ
  /-- `isinstance(self, RK)` -/
  rk : Bool
  /-- `Psat_coeffs_critical` -/
  crit : List ℝ
  /-- `Psat_ranges_low` with `Psat_coeffs_low` -/
  low : List (ℝ × List ℝ)
  /-- `Psat_ranges_low[-1]` -/
  last : ℝ
  /-- `a_alpha/a` -/
  alpha : ℝ → ℝ
  /-- its temperature derivative -/
  alpha1 : ℝ → ℝ

/-- `x = alpha/Tr - 1` (2923). -/
noncomputable def Corr.x (k : Corr) (T : ℝ) : ℝ := k.alpha T / (T / k.Tc) - 1

open Classical in
/-- `Psat(T, polish=False)` (2917-2950); `none` for `NoSolutionError`. -/
noncomputable def Corr.psat (k : Corr) (T : ℝ) : Option ℝ :=
  if T = k.Tc then some k.Pc else
  let Tr := T / k.Tc
  let x := k.x T
  if 0.999 < Tr ∧ k.rk = false then
    let Psat := horner k.crit x * Tr * k.Pc
    if k.Pc < Psat ∧ T < k.Tc then some (k.Pc * (1 - 1e-14)) else some Psat
  else if k.last < x then none
  else some (Real.exp (horner (pick x k.low) x) * Tr * k.Pc)

open Classical in
/-- `dPsat_dT(T, polish=False)` (3139-3189). -/
noncomputable def Corr.dpsat (k : Corr) (T : ℝ) : Option ℝ :=
  let alpha := k.alpha T
  let d_alpha_dT := k.alpha1 T
  let Tc_inv := 1 / k.Tc
  let T_inv := 1 / T
  let Tr := T * Tc_inv
  if 0.999 < Tr ∧ k.rk = false then
    let x := alpha / Tr - 1
    let y := horner k.crit x
    let dy_dT := T_inv * (k.Tc * d_alpha_dT - k.Tc * alpha * T_inv) * horner (polyder k.crit) x
    some (k.Pc * (T * dy_dT * Tc_inv + y * Tc_inv))
  else
    let x := alpha / Tr - 1
    if k.last < x then none else
    let ydy := hornerBoth (pick x k.low) x
    let dy_dT := k.Tc * T_inv * (d_alpha_dT - alpha * T_inv) * ydy.2
    some ((T * dy_dT + 1) * k.Pc * Real.exp ydy.1 * Tc_inv)

/-! ### Polynomials -/

/-- Specification of `horner`. -/
def val (x : ℝ) : List ℝ → ℝ
  | [] => 0
  | c :: cs => c * x ^ cs.length + val x cs

theorem horner_acc (cs : List ℝ) (x y : ℝ) : cs.foldl (fun y c => y * x + c) y = y * x ^ cs.length + val x cs := by
  induction cs generalizing y with
  | nil => simp [val]
  | cons c cs ih => rw [List.foldl_cons, ih, val, List.length_cons]; ring

theorem horner_val (cs : List ℝ) (x : ℝ) : horner cs x = val x cs := by
  unfold horner; rw [horner_acc, zero_mul, zero_add]

theorem hasDerivAt_val (cs : List ℝ) (x : ℝ) : HasDerivAt (fun x => val x cs) (val x (polyder cs)) x := by
  induction cs with
  | nil => exact hasDerivAt_const x 0
  | cons c cs ih =>
    cases cs with
    | nil => simp only [val, polyder, List.length_nil, pow_zero, mul_one, add_zero]; exact hasDerivAt_const x c
    | cons d cs =>
      have h1 := ((hasDerivAt_id' x).fun_pow (d :: cs).length).const_mul c
      have h := h1.fun_add ih
      refine HasDerivAt.congr_deriv h ?_
      have hl : ∀ (d : ℝ) (l : List ℝ), (polyder (d :: l)).length = l.length := by
        intro d l
        induction l generalizing d with
        | nil => rfl
        | cons e l ih => simp only [polyder, List.length_cons, ih]
      simp only [polyder, val, hl, List.length_cons, Nat.add_sub_cancel]
      ring

theorem both_fst (cs : List ℝ) (x : ℝ) (s : ℝ × ℝ) :
    (cs.foldl (fun s c => (x * s.1 + c, x * s.2 + s.1)) s).1 = s.1 * x ^ cs.length + val x cs := by
  induction cs generalizing s with
  | nil => simp [val]
  | cons c cs ih => rw [List.foldl_cons, ih, val, List.length_cons]; ring

theorem both_deriv (cs : List ℝ) (x : ℝ) (s : ℝ → ℝ × ℝ) (h : HasDerivAt (fun x => (s x).1) (s x).2 x) :
    HasDerivAt (fun x => (cs.foldl (fun s c => (x * s.1 + c, x * s.2 + s.1)) (s x)).1)
      (cs.foldl (fun s c => (x * s.1 + c, x * s.2 + s.1)) (s x)).2 x := by
  induction cs generalizing s with
  | nil => exact h
  | cons c cs ih =>
    simp only [List.foldl_cons]
    refine ih (fun x => (x * (s x).1 + c, x * (s x).2 + (s x).1)) ?_
    exact (((hasDerivAt_id' x).fun_mul h).add_const c).congr_deriv (by ring)

theorem hornerBoth_fst (cs : List ℝ) (x : ℝ) : (hornerBoth cs x).1 = horner cs x := by
  unfold hornerBoth; rw [both_fst, horner_val]; simp

theorem hasDerivAt_horner (cs : List ℝ) (x : ℝ) : HasDerivAt (horner cs) (hornerBoth cs x).2 x := by
  have h := both_deriv cs x (fun _ => (0, 0)) (hasDerivAt_const x (0 : ℝ))
  have e : horner cs = fun x => (hornerBoth cs x).1 := by funext y; rw [hornerBoth_fst]
  rw [e]
  exact h

theorem pick_near (l : List (ℝ × List ℝ)) (x : ℝ) (hx : ∀ r ∈ l, x ≠ r.1) : ∀ᶠ y in 𝓝 x, pick y l = pick x l := by
  induction l with
  | nil => simp [pick]
  | cons p l ih =>
    cases l with
    | nil => obtain ⟨r, cs⟩ := p; simp [pick]
    | cons q l =>
      obtain ⟨r, cs⟩ := p
      have h1 := ih (fun r hr => hx r (List.mem_cons_of_mem _ hr))
      have hr : x ≠ r := hx (r, cs) List.mem_cons_self
      rcases lt_or_gt_of_ne hr with h | h
      · filter_upwards [eventually_lt_nhds h] with y hy
        simp only [pick, if_pos hy, if_pos h]
      · filter_upwards [eventually_gt_nhds h, h1] with y hy h2
        simp only [pick, if_neg (not_lt.2 hy.le), if_neg (not_lt.2 h.le)]
        exact h2

/-! ### The derivative of the correlation -/

variable {k : Corr} {T : ℝ}

theorem hasDerivAt_x (hTc : 0 < k.Tc) (hT : 0 < T) (ha : HasDerivAt k.alpha (k.alpha1 T) T) :
    HasDerivAt k.x (k.Tc * (1 / T) * (k.alpha1 T - k.alpha T * (1 / T))) T := by
  have h := (ha.fun_div ((hasDerivAt_id' T).div_const k.Tc) (by positivity)).sub_const 1
  refine HasDerivAt.congr_deriv h ?_
  field_simp

/-- **C58.** Away from the switch at 0.999 and the ends of the fitted ranges, `dPsat_dT` is the derivative of `Psat` (low temperature
correlation). -/
theorem C58_dPsat_low (hTc : 0 < k.Tc) (hT : 0 < T) (ha : HasDerivAt k.alpha (k.alpha1 T) T)
    (hTr : T / k.Tc < 0.999 ∨ k.rk = true) (hne : T ≠ k.Tc) (hlast : k.x T < k.last)
    (hr : ∀ r ∈ k.low, k.x T ≠ r.1) :
    ∃ P' : ℝ, k.dpsat T = some P' ∧ ∃ P : ℝ → ℝ, (∀ᶠ t in 𝓝 T, k.psat t = some (P t)) ∧ HasDerivAt P P' T := by
  have hx := hasDerivAt_x hTc hT ha
  have ex : k.alpha T / (T * (1 / k.Tc)) - 1 = k.x T := by unfold Corr.x; rw [mul_one_div]
  have hn : ¬ (0.999 < T * (1 / k.Tc) ∧ k.rk = false) := by
    rintro ⟨h1, h2⟩
    rcases hTr with h | h
    · rw [mul_one_div] at h1; linarith
    · rw [h] at h2; cases h2
  refine ⟨(T * (k.Tc * (1 / T) * (k.alpha1 T - k.alpha T * (1 / T)) * (hornerBoth (pick (k.x T) k.low) (k.x T)).2) + 1) * k.Pc
    * Real.exp (hornerBoth (pick (k.x T) k.low) (k.x T)).1 * (1 / k.Tc), ?_,
    fun t => Real.exp (horner (pick (k.x T) k.low) (k.x t)) * (t / k.Tc) * k.Pc, ?_, ?_⟩
  · unfold Corr.dpsat
    dsimp only
    rw [if_neg hn, ex, if_neg (not_lt.2 hlast.le)]
  · have h1 : ∀ᶠ t in 𝓝 T, t ≠ k.Tc := isOpen_ne.mem_nhds hne
    have h2 : ∀ᶠ t in 𝓝 T, ¬ (0.999 < t / k.Tc ∧ k.rk = false) := by
      rcases hTr with h | h
      · have hc : ContinuousAt (fun t => t / k.Tc) T := (continuous_id.div_const k.Tc).continuousAt
        filter_upwards [hc.eventually_lt continuousAt_const h] with t ht
        exact fun h' => absurd h'.1 (not_lt.2 ht.le)
      · filter_upwards with t h'
        rw [h] at h'; cases h'.2
    have h3 : ∀ᶠ t in 𝓝 T, k.x t < k.last := hx.continuousAt.eventually_lt continuousAt_const hlast
    have h4 : ∀ᶠ t in 𝓝 T, pick (k.x t) k.low = pick (k.x T) k.low := hx.continuousAt.eventually (pick_near _ _ hr)
    filter_upwards [h1, h2, h3, h4] with t h1 h2 h3 h4
    unfold Corr.psat
    dsimp only
    rw [if_neg h1, if_neg h2, if_neg (not_lt.2 h3.le), h4]
  · have h := (((((hasDerivAt_horner (pick (k.x T) k.low) (k.x T)).comp T hx).exp).fun_mul
      ((hasDerivAt_id' T).div_const k.Tc)).mul_const k.Pc)
    refine HasDerivAt.congr_deriv h ?_
    simp only [Function.comp, hornerBoth_fst]
    field_simp

/-- **C58.** The same near the critical temperature, where the value is not replaced by the bound. -/
theorem C58_dPsat_critical (hTc : 0 < k.Tc) (hT : 0 < T) (ha : HasDerivAt k.alpha (k.alpha1 T) T)
    (hTr : 0.999 < T / k.Tc) (hrk : k.rk = false) (hne : T ≠ k.Tc)
    (hb : horner k.crit (k.x T) * (T / k.Tc) * k.Pc < k.Pc ∨ k.Tc < T) :
    ∃ P' : ℝ, k.dpsat T = some P' ∧ ∃ P : ℝ → ℝ, (∀ᶠ t in 𝓝 T, k.psat t = some (P t)) ∧ HasDerivAt P P' T := by
  have hx := hasDerivAt_x hTc hT ha
  have ex : k.alpha T / (T * (1 / k.Tc)) - 1 = k.x T := by unfold Corr.x; rw [mul_one_div]
  have hv : HasDerivAt (horner k.crit) (horner (polyder k.crit) (k.x T)) (k.x T) := by
    have := hasDerivAt_val k.crit (k.x T)
    rw [← horner_val] at this
    have e : horner k.crit = fun x => val x k.crit := by funext x; exact horner_val _ _
    rw [e]; exact this
  have h := (((hv.comp T hx).fun_mul ((hasDerivAt_id' T).div_const k.Tc)).mul_const k.Pc)
  refine ⟨k.Pc * (T * (1 / T * (k.Tc * k.alpha1 T - k.Tc * k.alpha T * (1 / T)) * horner (polyder k.crit) (k.x T)) * (1 / k.Tc)
    + horner k.crit (k.x T) * (1 / k.Tc)), ?_, fun t => horner k.crit (k.x t) * (t / k.Tc) * k.Pc, ?_, ?_⟩
  · unfold Corr.dpsat
    dsimp only
    rw [if_pos ⟨by rw [mul_one_div]; exact hTr, hrk⟩, ex]
  · have h1 : ∀ᶠ t in 𝓝 T, t ≠ k.Tc := isOpen_ne.mem_nhds hne
    have hc : ContinuousAt (fun t => t / k.Tc) T := (continuous_id.div_const k.Tc).continuousAt
    have h2 : ∀ᶠ t in 𝓝 T, 0.999 < t / k.Tc := continuousAt_const.eventually_lt hc hTr
    have h3 : ∀ᶠ t in 𝓝 T, ¬ (k.Pc < horner k.crit (k.x t) * (t / k.Tc) * k.Pc ∧ t < k.Tc) := by
      rcases hb with hb | hb
      · have := ContinuousAt.eventually_lt h.continuousAt continuousAt_const hb
        filter_upwards [this] with t ht
        exact fun h' => absurd h'.1 (not_lt.2 (le_of_lt ht))
      · filter_upwards [eventually_gt_nhds hb] with t ht
        exact fun h' => absurd h'.2 (not_lt.2 ht.le)
    filter_upwards [h1, h2, h3] with t h1 h2 h3
    unfold Corr.psat
    dsimp only
    rw [if_neg h1, if_pos ⟨h2, hrk⟩, if_neg h3]
  · refine HasDerivAt.congr_deriv h ?_
    simp only [Function.comp]
    field_simp

/-- A correlation with two ranges. -/
noncomputable def demoCorr : Corr := ⟨100, 50, false, [2, -3, 1], [(1, [-1, 0]), (5, [-2, 1])], 5, fun _ => 1, fun _ => 0⟩

example := C58_dPsat_low (k := demoCorr) (T := 40) (by norm_num [demoCorr]) (by norm_num) (hasDerivAt_const _ _)
  (.inl (by norm_num [demoCorr])) (by norm_num [demoCorr]) (by norm_num [demoCorr, Corr.x])
  (by intro r hr; simp only [demoCorr, List.mem_cons, List.not_mem_nil, or_false] at hr
      rcases hr with rfl | rfl <;> norm_num [demoCorr, Corr.x])
example := C58_dPsat_critical (k := demoCorr) (T := 101) (by norm_num [demoCorr]) (by norm_num) (hasDerivAt_const _ _)
  (by norm_num [demoCorr]) rfl (by norm_num [demoCorr]) (.inr (by norm_num [demoCorr]))

/-- **C58.** Where the value is replaced by the bound `Pc*(1 - 1e-14)` (2929-2930) the derivative is not: the pressure
is constant there but `dPsat_dT` is not zero. -/
theorem C58_dPsat_bound_fails : ∃ k : Corr, ∃ T : ℝ, (∃ p : ℝ, ∀ᶠ t in 𝓝 T, k.psat t = some p)
    ∧ ∃ d : ℝ, k.dpsat T = some d ∧ d ≠ 0 := by
  refine ⟨⟨1, 1, false, [2], [], 5, fun _ => 1, fun _ => 0⟩, 0.9995, ⟨1 * (1 - 1e-14), ?_⟩, 2, ?_, by norm_num⟩
  · filter_upwards [Ioo_mem_nhds (show (0.9992 : ℝ) < 0.9995 by norm_num) (show (0.9995 : ℝ) < 0.9998 by norm_num)]
      with t ht
    obtain ⟨h1, h2⟩ := ht
    unfold Corr.psat
    dsimp only
    rw [if_neg (by intro h; linarith), if_pos ⟨by rw [div_one]; linarith, rfl⟩, if_pos]
    refine ⟨?_, by linarith⟩
    simp only [horner, List.foldl_cons, List.foldl_nil]
    linarith
  · unfold Corr.dpsat
    dsimp only
    rw [if_pos ⟨by norm_num, rfl⟩]
    norm_num [horner, polyder]

/-! ### Along the saturation curve -/

/-- Two phases in equilibrium near a temperature: volumes and pressure as functions of temperature, with equal
pressures and equal fugacities. -/
structure Coexist (f : Fluid) (T : ℝ) (Psat Vl Vg : ℝ → ℝ) (P' Vl' Vg' : ℝ) : Prop where
  dP : HasDerivAt Psat P' T
  dVl : HasDerivAt Vl Vl' T
  dVg : HasDerivAt Vg Vg' T
  pl : ∀ᶠ t in 𝓝 T, f.p t (Vl t) = Psat t
  pg : ∀ᶠ t in 𝓝 T, f.p t (Vg t) = Psat t
  eq : ∀ᶠ t in 𝓝 T, f.p t (Vl t) * phi f.R t (Hd f t (Vl t)) (Sd f t (Vl t))
    = f.p t (Vg t) * phi f.R t (Hd f t (Vg t)) (Sd f t (Vg t))
  sl : State f T (Vl T)
  sg : State f T (Vg T)

theorem along_unique {T V T' V' d e : ℝ} {X : ℝ → ℝ → ℝ} (h : Along T V T' V' X d) (k : Along T V T' V' X e) : d = e := by
  have t1 : HasDerivAt (fun t : ℝ => T + T' * t) T' 0 := (((hasDerivAt_id' (0 : ℝ)).const_mul T').const_add T).congr_deriv (by ring)
  have t2 : HasDerivAt (fun t : ℝ => V + V' * t) V' 0 := (((hasDerivAt_id' (0 : ℝ)).const_mul V').const_add V).congr_deriv (by ring)
  exact (h _ _ (by simp) (by simp) t1 t2).unique (k _ _ (by simp) (by simp) t1 t2)

/-- A derivative along the curve `t ↦ (t, ν t)`. -/
theorem along_curve {T V' d : ℝ} {ν : ℝ → ℝ} {X : ℝ → ℝ → ℝ} (hν : HasDerivAt ν V' T) (h : Along T (ν T) 1 V' X d) :
    HasDerivAt (fun t => X t (ν t)) d T := by
  have t1 : HasDerivAt (fun t : ℝ => T + t) 1 0 := (hasDerivAt_id' (0 : ℝ)).const_add T
  have hν0 : HasDerivAt ν V' (T + 0) := by rw [add_zero]; exact hν
  have t2 : HasDerivAt (fun t : ℝ => ν (T + t)) V' 0 := by
    have := HasDerivAt.comp (0 : ℝ) hν0 t1
    rw [mul_one] at this
    exact this
  have h1 := h _ _ (by simp) (by simp) t1 t2
  have h1' : HasDerivAt (fun t => X (T + t) (ν (T + t))) d (T - T) := by rw [sub_self]; exact h1
  have t3 : HasDerivAt (fun s : ℝ => s - T) 1 T := (hasDerivAt_id' T).sub_const T
  have := HasDerivAt.comp (h₂ := fun t => X (T + t) (ν (T + t))) (h := fun s => s - T) T h1' t3
  rw [mul_one] at this
  refine this.congr_of_eventuallyEq ?_
  filter_upwards with s
  simp [Function.comp]

variable {f : Fluid} {Psat Vl Vg : ℝ → ℝ} {P' Vl' Vg' : ℝ}

/-- A quantity with a total differential changes along the curve by its derivative at constant pressure plus the one
at constant temperature times the slope. -/
theorem along_split {T V V' P' d1 d2 xT xV : ℝ} {X : ℝ → ℝ → ℝ} (hs : State f T V) (hX : Total X xT xV T V)
    (h1 : Along T V 1 (V_T f T V) X d1) (h2 : Along T V 0 (V_P f T V) X d2)
    (hV : pT f T V + pV f T V * V' = P') : Along T V 1 V' X (d1 + d2 * P') := by
  have e1 : d1 = xT * 1 + xV * V_T f T V := along_unique h1 (hX _ _)
  have e2 : d2 = xT * 0 + xV * V_P f T V := along_unique h2 (hX _ _)
  refine hX.along ?_
  rw [e1, e2, V_T_eq, V_P_eq, ← hV]
  have := hs.hV
  field_simp
  ring

/-- The fugacity has a total differential. -/
theorem total_fug {V : ℝ} (h : State f T V) : ∃ xT xV, Total (fun T V => f.p T V * phi f.R T (Hd f T V) (Sd f T V)) xT xV T V := by
  have h1 := ((((total_Hd h).sub ((Total.fst T V).mul (total_Sd h))).mul (Total.const (1 / f.R) T V)).div (Total.fst T V)
    h.posT.ne').exp
  exact ⟨_, _, (total_p h.smooth h.posT h.phys.off).mul h1⟩

theorem curve_slope {V : ℝ → ℝ} {V' : ℝ} (hs : State f T (V T)) (hV : HasDerivAt V V' T) (hP : HasDerivAt Psat P' T)
    (he : ∀ᶠ t in 𝓝 T, f.p t (V t) = Psat t) : pT f T (V T) + pV f T (V T) * V' = P' := by
  have h1 : HasDerivAt (fun t => f.p t (V t)) (pT f T (V T) * 1 + pV f T (V T) * V') T :=
    along_curve hV (total_p hs.smooth hs.posT hs.phys.off _ _)
  rw [mul_one] at h1
  exact h1.unique (hP.congr_of_eventuallyEq he)

/-- The code's `dfugacity_dT` of a state. -/
noncomputable def dfT (f : Fluid) (T V : ℝ) : ℝ := dfugacity_dT f.R T (f.p T V) (Hd f T V) (Sd f T V)
  (dH_dep_dT f.R T (f.p T V) V f.delta f.epsilon (f.a T) (f.a1 T) (f.a2 T) (V_T f T V))
  (dS_dep_dT f.R T V f.b f.delta f.epsilon (f.a1 T) (f.a2 T) (V_T f T V))
/-- The code's `dfugacity_dP` of a state. -/
noncomputable def dfP (f : Fluid) (T V : ℝ) : ℝ := dfugacity_dP f.R T (f.p T V) (Hd f T V) (Sd f T V)
  (dH_dep_dP T (f.p T V) V f.delta f.epsilon (f.a T) (f.a1 T) (V_P f T V))
  (dS_dep_dP f.R (f.p T V) V f.b f.delta f.epsilon (f.a1 T) (V_P f T V))
/-- The fugacity of a state. -/
noncomputable def fug (f : Fluid) (T V : ℝ) : ℝ := f.p T V * phi f.R T (Hd f T V) (Sd f T V)

theorem fug_curve {V : ℝ → ℝ} {V' : ℝ} (hs : State f T (V T)) (hV : HasDerivAt V V' T) (hP : HasDerivAt Psat P' T)
    (he : ∀ᶠ t in 𝓝 T, f.p t (V t) = Psat t) :
    HasDerivAt (fun t => fug f t (V t)) (dfT f T (V T) + dfP f T (V T) * P') T := by
  obtain ⟨xT, xV, hX⟩ := total_fug hs
  obtain ⟨-, -, h1, h2⟩ := C57_fugacity hs
  exact along_curve hV (along_split hs hX h1 h2 (curve_slope hs hV hP he))

/-- The Gibbs departure has the differential `-S dT + (V - RT/p) dp`. -/
theorem total_gibbs {V : ℝ} (h : State f T V) : Total (fun T V => Hd f T V - T * Sd f T V)
    (-Sd f T V + (V - f.R * T / f.p T V) * pT f T V) ((V - f.R * T / f.p T V) * pV f T V) T V := by
  have hp := h.posP.ne'
  have hT := h.posT.ne'
  have ep : f.p T V = f.R * T * (1 / (V - f.b)) - f.a T * (1 / (V ^ 2 + f.delta * V + f.epsilon)) := by rw [p_eq]; ring
  refine ((total_Hd h).sub ((Total.fst T V).mul (total_Sd h))).congr ?_ ?_
  · generalize hard f V = Hh
    generalize Sd f T V = S
    generalize pT f T V = x
    generalize f.p T V = p at *
    field_simp
    ring
  · generalize Sd f T V = S
    generalize pV f T V = x
    generalize 1 / (V - f.b) = B at *
    generalize 1 / (V ^ 2 + f.delta * V + f.epsilon) = Q at *
    generalize f.p T V = p at *
    have e : f.R * T / p * x = T * (f.R * (x / p)) := by ring
    linear_combination (-1 : ℝ) * ep - e

/-- The Gibbs departure along the saturation curve. -/
theorem gibbs_curve {V : ℝ → ℝ} {V' : ℝ} (hs : State f T (V T)) (hV : HasDerivAt V V' T) (hP : HasDerivAt Psat P' T)
    (he : ∀ᶠ t in 𝓝 T, f.p t (V t) = Psat t) :
    HasDerivAt (fun t => Hd f t (V t) - t * Sd f t (V t)) (-Sd f T (V T) + (V T - f.R * T / Psat T) * P') T := by
  refine along_curve (X := fun T V => Hd f T V - T * Sd f T V) hV ((total_gibbs hs).along ?_)
  rw [← curve_slope hs hV hP he, ← he.self_of_nhds]
  ring

/-- The code's pressure derivative of the fugacity is `f V/(RT)`. -/
theorem dfP_eq {V : ℝ} (h : State f T V) : dfP f T V = fug f T V * V / (f.R * T) := by
  have hp := h.posP.ne'; have hT := h.posT.ne'; have hR := h.smooth.R.ne'; have hv := h.hV
  have k1 := (((total_gibbs h).mul (Total.const (1 / f.R) T V)).div (Total.fst T V) hT).exp
  have k := (total_p h.smooth h.posT h.phys.off).mul k1
  obtain ⟨-, -, -, h2⟩ := C57_fugacity h
  have e := along_unique h2 (k 0 (V_P f T V))
  have e' : dfP f T V = _ := e
  rw [e', V_P_eq]
  unfold fug phi
  generalize Real.exp ((Hd f T V - T * Sd f T V) * (1 / f.R) / T) = E
  generalize Hd f T V - T * Sd f T V = G
  generalize pV f T V = x at *
  generalize f.p T V = p at *
  field_simp
  ring

/-- `dPsat_dT(T, polish=True)` (3132-3134). -/
noncomputable def dpsatPolished (dfg_T dfl_T dfg_P dfl_P : ℝ) : ℝ := (dfg_T - dfl_T) / (dfl_P - dfg_P)

/-- **C58.** The polished `dPsat_dT` is the slope of the saturation curve: for every curve of equal pressures and fugacities. -/
theorem C58_dPsat_polished (h : Coexist f T Psat Vl Vg P' Vl' Vg') (hne : Vl T ≠ Vg T) :
    dpsatPolished (dfT f T (Vg T)) (dfT f T (Vl T)) (dfP f T (Vg T)) (dfP f T (Vl T)) = P' := by
  have hl := fug_curve h.sl h.dVl h.dP h.pl
  have hg := fug_curve h.sg h.dVg h.dP h.pg
  have he : (fun t => fug f t (Vl t)) =ᶠ[𝓝 T] fun t => fug f t (Vg t) := h.eq
  have e := hl.unique (hg.congr_of_eventuallyEq he)
  have hd : dfP f T (Vl T) ≠ dfP f T (Vg T) := by
    rw [dfP_eq h.sl, dfP_eq h.sg, show fug f T (Vl T) = fug f T (Vg T) from he.self_of_nhds]
    have h0 : fug f T (Vg T) ≠ 0 := mul_ne_zero h.sg.posP.ne' (Real.exp_pos _).ne'
    have hT := h.sl.posT.ne'; have hR := h.sl.smooth.R.ne'
    intro h1
    rw [div_left_inj' (mul_ne_zero hR hT)] at h1
    exact hne (mul_left_cancel₀ h0 h1)
  unfold dpsatPolished
  rw [div_eq_iff (sub_ne_zero.2 hd)]
  linarith

/-- `dphi_sat_dT` (3268-3273). -/
noncomputable def dphiSat (dPsat dfl_P dfl_T fugacity Psat : ℝ) : ℝ :=
  let dfugacity_sat_dT := dPsat * dfl_P + dfl_T
  let Psat_inv := 1 / Psat
  (dfugacity_sat_dT - fugacity * dPsat * Psat_inv) * Psat_inv

/-- **C58.** `dphi_sat_dT` is the derivative of the saturation fugacity coefficient along the curve. -/
theorem C58_dphi_sat (h : Coexist f T Psat Vl Vg P' Vl' Vg') :
    HasDerivAt (fun t => phi f.R t (Hd f t (Vl t)) (Sd f t (Vl t)))
      (dphiSat P' (dfP f T (Vl T)) (dfT f T (Vl T)) (fug f T (Vl T)) (Psat T)) T := by
  have hl := fug_curve h.sl h.dVl h.dP h.pl
  have hp0 : Psat T ≠ 0 := by rw [← h.pl.self_of_nhds]; exact h.sl.posP.ne'
  have hq := hl.fun_div h.dP hp0
  have hne : ∀ᶠ t in 𝓝 T, Psat t ≠ 0 := h.dP.continuousAt.eventually_ne hp0
  refine HasDerivAt.congr_of_eventuallyEq (HasDerivAt.congr_deriv hq ?_) ?_
  · unfold dphiSat
    field_simp
    ring
  · filter_upwards [h.pl, hne] with t ht hn
    unfold fug
    rw [ht]
    field_simp

/-- `Hvap` (3395). -/
def hvap (dPsat_dT T V_g V_l : ℝ) : ℝ := dPsat_dT * T * (V_g - V_l)

/-- **C58.** `Hvap` is the difference of the departure enthalpies of the two phases (Clausius-Clapeyron). -/
theorem C58_Hvap (h : Coexist f T Psat Vl Vg P' Vl' Vg') :
    hvap P' T (Vg T) (Vl T) = Hd f T (Vg T) - Hd f T (Vl T) := by
  have hl := gibbs_curve h.sl h.dVl h.dP h.pl
  have hg := gibbs_curve h.sg h.dVg h.dP h.pg
  have hT := h.sl.posT
  have hR := h.sl.smooth.R
  have hcore : ∀ᶠ t in 𝓝 T, Hd f t (Vl t) - t * Sd f t (Vl t) = Hd f t (Vg t) - t * Sd f t (Vg t) := by
    have hp0 : 0 < Psat T := by rw [← h.pl.self_of_nhds]; exact h.sl.posP
    filter_upwards [h.pl, h.pg, h.eq, h.dP.continuousAt.eventually (lt_mem_nhds hp0), lt_mem_nhds hT] with t h1 h2 h3 h4 h5
    rw [h1, h2] at h3
    have h6 := mul_left_cancel₀ h4.ne' h3
    unfold phi at h6
    have h7 := Real.exp_injective h6
    rw [div_left_inj' h5.ne'] at h7
    exact mul_right_cancel₀ (by positivity : (1 / f.R) ≠ 0) h7
  have e := hl.unique (hg.congr_of_eventuallyEq hcore)
  have e0 := hcore.self_of_nhds
  unfold hvap
  have : P' * (Vg T - Vl T) = Sd f T (Vg T) - Sd f T (Vl T) := by linarith
  linear_combination T * this + e0

/-! ### A fluid with a saturation curve -/

/-- A fluid whose attraction is proportional to temperature; the covolume is `1 - 1/u`. -/
noncomputable def boiling (u : ℝ) : Fluid :=
  ⟨1, 1 - 1 / u, 1, 0, fun T => 3 * u ^ 2 / (1 + u) * T, fun _ => 3 * u ^ 2 / (1 + u), fun _ => 0, fun _ => 0⟩

/-- A parameter for which the volumes 1 and 2 have the same fugacity. -/
theorem boiling_param : ∃ u : ℝ, 1.3 < u ∧ u < 1.35 ∧
    Real.log (1 + u) * (1 + u) - u = u ^ 2 * (3 * Real.log (4 / 3) - 1 / 2) := by
  have l2 := Real.log_two_gt_d9
  have l2' := Real.log_two_lt_d9
  have up43 : Real.log (4 / 3) < 22 / 53 * Real.log 2 := by
    have := Real.log_lt_log (by norm_num) (show ((4 : ℝ) / 3) ^ 53 < 2 ^ 22 by norm_num)
    rw [Real.log_pow, Real.log_pow] at this
    push_cast at this
    linarith
  have lo43 : 83 / 200 * Real.log 2 < Real.log (4 / 3) := by
    have := Real.log_lt_log (by norm_num) (show (2 : ℝ) ^ 83 < (4 / 3) ^ 200 by norm_num)
    rw [Real.log_pow, Real.log_pow] at this
    push_cast at this
    linarith
  have lo23 : 149 / 124 * Real.log 2 < Real.log (1 + 1.3) := by
    have := Real.log_lt_log (by norm_num) (show (2 : ℝ) ^ 149 < (1 + 1.3) ^ 124 by norm_num)
    rw [Real.log_pow, Real.log_pow] at this
    push_cast at this
    linarith
  have up235 : Real.log (1 + 1.35) < 37 / 30 * Real.log 2 := by
    have := Real.log_lt_log (by norm_num) (show ((1 : ℝ) + 1.35) ^ 30 < 2 ^ 37 by norm_num)
    rw [Real.log_pow, Real.log_pow] at this
    push_cast at this
    linarith
  have hc : ContinuousOn (fun u : ℝ => Real.log (1 + u) * (1 + u) - u - u ^ 2 * (3 * Real.log (4 / 3) - 1 / 2))
      (Set.Icc 1.3 1.35) := by
    intro u hu
    have : (1 + u) ≠ 0 := by have := hu.1; intro h; norm_num at this; linarith
    exact (ContinuousAt.continuousWithinAt (by fun_prop (disch := assumption)))
  have := intermediate_value_Ioo' (by norm_num : (1.3 : ℝ) ≤ 1.35) hc
  obtain ⟨u, ⟨h1, h2⟩, h3⟩ := this (show (0 : ℝ) ∈ Set.Ioo _ _ from ⟨by norm_num at *; linarith, by norm_num at *; linarith⟩)
  exact ⟨u, h1, h2, by linarith⟩

/-- The hypotheses can be met: a liquid of volume 1 and a gas of volume 2. -/
theorem boiling_coexist : ∃ f : Fluid, ∃ P' : ℝ, 0 < P' ∧
    Coexist f 2 (fun t => P' * t) (fun _ => 1) (fun _ => 2) P' 0 0 := by
  obtain ⟨u, h1, h2, h3⟩ := boiling_param
  have hu : 0 < u := by norm_num at h1; linarith
  have hu1 : 0 < 1 + u := by linarith
  have hp1 : ∀ t, (boiling u).p t 1 = u * (2 - u) / (2 * (1 + u)) * t := by
    intro t; rw [p_eq]; simp only [boiling]; field_simp; ring
  have hp2 : ∀ t, (boiling u).p t 2 = u * (2 - u) / (2 * (1 + u)) * t := by
    intro t; rw [p_eq]; simp only [boiling]
    have : (2 : ℝ) - (1 - 1 / u) = (1 + u) / u := by field_simp; ring
    rw [this]; field_simp; ring
  have hP : 0 < u * (2 - u) / (2 * (1 + u)) := by
    have : 0 < 2 - u := by norm_num at h2; linarith
    positivity
  have hs : (boiling u).Smooth := by
    refine ⟨one_pos, fun T _ => ?_, fun T _ => hasDerivAt_const _ _, fun T _ => hasDerivAt_const _ _⟩
    exact ((hasDerivAt_id' T).const_mul _).congr_deriv (by simp [boiling])
  have hsq : √((boiling u).delta ^ 2 - 4 * (boiling u).epsilon) = 1 := by simp [boiling]
  have hb : (boiling u).b < 1 := by
    have : 0 < 1 / u := by positivity
    simp only [boiling]; linarith
  have ph1 : (boiling u).Phys 1 := ⟨hb, by simp [boiling], by rw [hsq]; norm_num [boiling]⟩
  have ph2 : (boiling u).Phys 2 := ⟨by linarith, by simp [boiling], by rw [hsq]; norm_num [boiling]⟩
  have s1 : State (boiling u) 2 1 := by
    refine ⟨hs, by norm_num, by norm_num, ph1, by rw [hp1]; positivity, ?_, ?_⟩
    · rw [pT_eq]; simp only [boiling]
      have : (1 : ℝ) / (1 - (1 - 1 / u)) - 3 * u ^ 2 / (1 + u) / (1 ^ 2 + 1 * 1 + 0) = u * (2 - u) / (2 * (1 + u)) := by
        field_simp; ring
      rw [this]; exact hP.ne'
    · rw [pV_eq]; simp only [boiling]
      have : 3 * u ^ 2 / (1 + u) * 2 * (2 * 1 + 1) / (1 ^ 2 + 1 * 1 + 0) ^ 2 - 1 * 2 / (1 - (1 - 1 / u)) ^ 2
          = u ^ 2 * (5 - 4 * u) / (2 * (1 + u)) := by field_simp; ring
      rw [this]
      have : 5 - 4 * u ≠ 0 := by norm_num at h1; intro h; linarith
      positivity
  have s2 : State (boiling u) 2 2 := by
    have e : (2 : ℝ) - (1 - 1 / u) = (1 + u) / u := by field_simp; ring
    refine ⟨hs, by norm_num, by norm_num, ph2, by rw [hp2]; positivity, ?_, ?_⟩
    · rw [pT_eq]; simp only [boiling]
      have : (1 : ℝ) / (2 - (1 - 1 / u)) - 3 * u ^ 2 / (1 + u) / (2 ^ 2 + 1 * 2 + 0) = u * (2 - u) / (2 * (1 + u)) := by
        rw [e]; field_simp; ring
      rw [this]; exact hP.ne'
    · rw [pV_eq]; simp only [boiling]
      have : 3 * u ^ 2 / (1 + u) * 2 * (2 * 2 + 1) / (2 ^ 2 + 1 * 2 + 0) ^ 2 - 1 * 2 / (2 - (1 - 1 / u)) ^ 2
          = u ^ 2 * (5 * u - 7) / (6 * (1 + u) ^ 2) := by rw [e]; field_simp; ring
      rw [this]
      have : 5 * u - 7 ≠ 0 := by norm_num at h2; intro h; linarith
      positivity
  refine ⟨boiling u, _, hP, ⟨?_, hasDerivAt_const _ _, hasDerivAt_const _ _, ?_, ?_, ?_, s1, s2⟩⟩
  · exact ((hasDerivAt_id' (2 : ℝ)).const_mul _).congr_deriv (by ring)
  · filter_upwards with t using hp1 t
  · filter_upwards with t using hp2 t
  · filter_upwards [lt_mem_nhds (show (0 : ℝ) < 2 by norm_num)] with t ht
    rw [hp1, hp2]
    congr 1
    unfold phi
    congr 3
    have eh1 : hard (boiling u) 1 = Real.log 2 := by
      rw [hard_eq ph1, hsq]; norm_num [boiling]
    have eh2 : hard (boiling u) 2 = Real.log 2 - Real.log (4 / 3) := by
      rw [hard_eq ph2, hsq, ← Real.log_div (by norm_num) (by norm_num)]; norm_num [boiling]
    unfold Hd Sd
    rw [main_H, main_S, main_H, main_S, hp1, hp2, eh1, eh2]
    have e : (2 : ℝ) - (1 - 1 / u) = (1 + u) / u := by field_simp; ring
    simp only [boiling]
    rw [e]
    set q := u * (2 - u) / (2 * (1 + u)) with hq
    have g1 : Real.log (1 * t * (1 / (1 - (1 - 1 / u))) / (q * t)) = Real.log (u / q) := by
      congr 1; field_simp; ring
    have g2 : Real.log (1 * t * (1 / ((1 + u) / u)) / (q * t)) = Real.log (u / q) - Real.log (1 + u) := by
      rw [← Real.log_div (by positivity) (by positivity)]; congr 1; field_simp
    rw [g1, g2]
    have g3 : Real.log (1 + u) = (u + u ^ 2 * (3 * Real.log (4 / 3) - 1 / 2)) / (1 + u) := by
      rw [eq_div_iff hu1.ne']; linarith
    rw [g3, hq]
    field_simp
    ring

example : ∃ f : Fluid, ∃ T P' : ℝ, ∃ Psat Vl Vg : ℝ → ℝ, 0 < P' ∧ Vl T ≠ Vg T ∧ Coexist f T Psat Vl Vg P' 0 0
    ∧ dpsatPolished (dfT f T (Vg T)) (dfT f T (Vl T)) (dfP f T (Vg T)) (dfP f T (Vl T)) = P'
    ∧ Hd f T (Vg T) - Hd f T (Vl T) = 2 * P' := by
  obtain ⟨f, P', h0, h⟩ := boiling_coexist
  refine ⟨f, 2, P', _, _, _, h0, by norm_num, h, C58_dPsat_polished h (by norm_num), ?_⟩
  rw [← C58_Hvap h]
  unfold hvap
  ring

/-! ### Translated equations -/

/-- `phi_sat(T, polish=False)` between 0.32 and 1 (3234-3236). The coefficients are those of the untranslated class: `PRTranslated` and
`SRKTranslated` inherit `phi_sat_coeffs`. -/
noncomputable def phiSat (coeffs : List ℝ) (Tc : ℝ) (alpha : ℝ → ℝ) (T : ℝ) : ℝ := horner coeffs (alpha T / (T / Tc) - 1)

/-- **C58.** The unpolished `phi_sat` is a polynomial in `alpha/Tr - 1`: at the critical temperature it is the last coefficient. -/
theorem C58_phi_sat_critical (cs : List ℝ) (c Tc : ℝ) (alpha : ℝ → ℝ) (hT : Tc ≠ 0) (ha : alpha Tc = 1) :
    phiSat (cs ++ [c]) Tc alpha Tc = c := by
  simp [phiSat, horner, ha, hT]

example : phiSat ([3, 2] ++ [7 / 10]) 2 (fun _ => 1) 2 = 7 / 10 := C58_phi_sat_critical _ _ _ _ (by norm_num) rfl

/-- **C58.** The unpolished `phi_sat` of a translated equation cannot be right if it is right for the untranslated one: at the same
saturation pressure the two coefficients differ by the factor `exp(-P c/(RT))` (`C36_lnphi`), but the correlation does
not see the translation. -/
theorem C58_phi_sat_translated_fails {k k' : Verif.Translation.Consts} {c R T P V aT Tc : ℝ} {coeffs : List ℝ} {alpha : ℝ → ℝ}
    (h : Verif.Translation.Shifted k k' c) (hR : R ≠ 0) (hT : T ≠ 0) (hP : P ≠ 0) (hc : c ≠ 0)
    (h0 : phiSat coeffs Tc alpha T = Real.exp (eosLnphi R T P (V + c) k.b k.delta k.epsilon aT)) :
    phiSat coeffs Tc alpha T ≠ Real.exp (eosLnphi R T P V k'.b k'.delta k'.epsilon aT) := by
  rw [h0, Verif.Translation.C36_lnphi h]
  intro h1
  have h2 := Real.exp_injective h1
  have : P * c / (R * T) ≠ 0 := div_ne_zero (mul_ne_zero hP hc) (mul_ne_zero hR hT)
  exact this (by linarith)

example : ∃ coeffs : List ℝ, phiSat coeffs 2 (fun _ => 1) 1 ≠ Real.exp (eosLnphi 1 1 1 3 (Verif.Translation.prTranslated 1 1).b
    (Verif.Translation.prTranslated 1 1).delta (Verif.Translation.prTranslated 1 1).epsilon 1) :=
  ⟨[Real.exp (eosLnphi 1 1 1 (3 + 1) (Verif.Translation.pr 1).b (Verif.Translation.pr 1).delta (Verif.Translation.pr 1).epsilon 1)],
    C58_phi_sat_translated_fails (Verif.Translation.C36_constants 1 1).1 one_ne_zero one_ne_zero one_ne_zero one_ne_zero
      (by simp [phiSat, horner])⟩

end Verif.Saturation
