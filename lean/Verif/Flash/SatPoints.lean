import Mathlib.Data.Real.Basic
import Mathlib.Analysis.SpecialFunctions.Log.Basic
import Mathlib.Analysis.SpecialFunctions.Log.Deriv
import Mathlib.Analysis.SpecialFunctions.ExpDeriv
import Mathlib.Analysis.Calculus.Deriv.Inv
import Mathlib.Analysis.Calculus.Deriv.MeanValue
import Mathlib.Topology.Order.IntermediateValue
import Mathlib.Tactic.Ring
import Mathlib.Tactic.Linarith
import Mathlib.Tactic.FieldSimp
import Mathlib.Tactic.NormNum
import Mathlib.Tactic.Positivity
import Mathlib.Algebra.BigOperators.Fin
import Mathlib.Algebra.Order.BigOperators.Ring.Finset
import Verif.Flash.Stability

/-!
# Saturation, dew and bubble points (`thermo/flash/flash_utils.py` 1967-2584, 3220-3576)

C93: saturation of one component (`TVF_pure_newton`, `PVF_pure_newton` and the variants with `secant` and with solids), dew and bubble
points after Michelsen and Mollerup, their variant with two liquids, and saturation of mixtures whose `K` values do not depend on
composition.

The solvers `newton` and `secant` of `fluids` are given by what they solve: statements are about zeros of the function passed to them.
In `dew_bubble_Michelsen_Mollerup` the option `V_diff` is `None`; phases are functions that may fail.
-/

namespace Verif.SatPoints

open scoped BigOperators
open Verif.FlashNewton (rr)

/-- A composition. -/
abbrev Comp (n : ℕ) := Fin n → ℝ

/-! ## One component -/

/-- A phase of one component at the fixed temperature or pressure, as functions of the variable solved for: fugacity, the derivative of
it that the phase returns, and Gibbs energy. -/
structure Pure where
  (f df G : ℝ → ℝ)

/-- The choice among liquids or among other phases (3233-3241, 3378-3386, 3391-3399): `one_liquid` is the number of liquids. `none` is
an `AttributeError`. -/
noncomputable def lowest (ls : List Pure) (t : ℝ) : Option Pure :=
  let one := ls.length
  if one ≠ 0 then ls.head?
  else (ls.foldl (fun s l => if l.G t < s.1 then (l.G t, some l) else s) ((10 : ℝ) ^ 100, none)).2

/-- The function solved by `TVF_pure_newton` and `PVF_pure_newton` (3226-3249, 3302-3325): error, derivative and the liquid. -/
noncomputable def errPure (ls : List Pure) (gas : Pure) (t : ℝ) : Option (ℝ × ℝ × Pure) :=
  (lowest ls t).map fun l => (l.f t - gas.f t, l.df t - gas.df t, l)

/-- The function solved by `TSF_pure_newton` and `PSF_pure_newton` (3375-3407, 3422-3454): error, derivative, other phase and solid. -/
noncomputable def errSolid (others solids : List Pure) (t : ℝ) : Option (ℝ × ℝ × Pure × Pure) :=
  match lowest solids t, lowest others t with
  | some s, some o => some (o.f t - s.f t, o.df t - s.df t, o, s)
  | _, _ => none

/-- Gibbs energy and fugacity belong together: `G = G0 + RT ln f` with `G0` the same for all phases. -/
def Consistent (RT G0 t : ℝ) (p : Pure) : Prop := 0 < p.f t ∧ p.G t = G0 + RT * Real.log (p.f t)

theorem lowest_cons (l : Pure) (ls : List Pure) (t : ℝ) : lowest (l :: ls) t = some l := by simp [lowest]

theorem lowest_nil (t : ℝ) : lowest [] t = none := by simp [lowest]

/-- **C93.** Where the error of the saturation functions is zero the gas and the returned liquid have the same Gibbs energy, and only there;
the error has the sign of the difference. -/
theorem C93_pure (ls : List Pure) (gas l : Pure) (t RT G0 e d : ℝ) (hRT : 0 < RT) (h : errPure ls gas t = some (e, d, l))
    (hg : Consistent RT G0 t gas) (hl : Consistent RT G0 t l) :
    l ∈ ls ∧ (e = 0 ↔ l.G t = gas.G t) ∧ (0 < e ↔ gas.G t < l.G t) := by
  unfold errPure at h
  cases ls with
  | nil => simp [lowest_nil] at h
  | cons a as =>
    rw [lowest_cons] at h
    simp only [Option.map_some, Option.some.injEq, Prod.mk.injEq] at h
    obtain ⟨he, _, hal⟩ := h
    subst hal
    have hlt : gas.G t < a.G t ↔ gas.f t < a.f t := by
      rw [hg.2, hl.2]
      constructor
      · intro h
        by_contra hc
        have := Real.log_le_log hl.1 (not_lt.1 hc)
        nlinarith
      · intro h
        have := Real.log_lt_log hg.1 h
        nlinarith
    have heq : a.G t = gas.G t ↔ a.f t = gas.f t := by
      rw [hg.2, hl.2]
      constructor
      · intro h
        exact Real.log_injOn_pos hl.1 hg.1 (mul_left_cancel₀ hRT.ne' (by linarith))
      · intro h; rw [h]
    refine ⟨by simp, ?_, ?_⟩
    · rw [heq, ← he, sub_eq_zero]
    · rw [hlt, ← he, sub_pos]

/-- **C93.** The derivative passed to the solver is that of the error, if those of the phases are. -/
theorem C93_pure_derivative (ls : List Pure) (gas l : Pure) (t e d : ℝ) (h : errPure ls gas t = some (e, d, l))
    (hg : HasDerivAt gas.f (gas.df t) t) (hl : ∀ l ∈ ls, HasDerivAt l.f (l.df t) t) :
    HasDerivAt (fun s => ((errPure ls gas s).map (·.1)).getD 0) d t := by
  cases ls with
  | nil => simp [errPure, lowest_nil] at h
  | cons a as =>
    simp only [errPure, lowest_cons, Option.map_some, Option.some.injEq, Prod.mk.injEq, Option.getD_some] at h ⊢
    rw [← h.2.1]
    exact (hl a (by simp)).sub hg

/-- **C93.** With a single liquid, at a zero no liquid is more stable than the gas. With several this is not so, see below. -/
theorem C93_pure_stable_partial (liquid gas l : Pure) (t RT G0 d : ℝ) (hRT : 0 < RT) (h : errPure [liquid] gas t = some (0, d, l))
    (hg : Consistent RT G0 t gas) (hl : Consistent RT G0 t liquid) : ∀ l' ∈ [liquid], gas.G t ≤ l'.G t := by
  have hl' : l = liquid := by
    simp only [errPure, lowest_cons, Option.map_some, Option.some.injEq, Prod.mk.injEq] at h
    exact h.2.2.symm
  subst hl'
  intro l' hm
  rw [List.mem_singleton.1 hm]
  exact ((C93_pure [l] gas l t RT G0 0 d hRT h hg hl).2.1.1 rfl).ge

/-- A phase of constant fugacity coefficient `φ` at fixed temperature, as function of pressure. -/
noncomputable def simple (c k : ℝ) : Pure where
  f := fun P => c * P ^ 0 + k * P
  df := fun _ => k
  G := fun P => Real.log (c * P ^ 0 + k * P)

/-- The premises are met: an incompressible liquid with vapor pressure two and an ideal gas. -/
example : errPure [simple 2 0] (simple 0 1) 2 = some (0, -1, simple 2 0) ∧ Consistent 1 0 2 (simple 2 0) ∧ Consistent 1 0 2 (simple 0 1)
    ∧ HasDerivAt (simple 0 1).f ((simple 0 1).df 2) 2 := by
  refine ⟨by simp [errPure, lowest_cons, simple], ⟨by simp [simple], by simp [simple]⟩, ⟨by simp [simple], by simp [simple]⟩, ?_⟩
  simp only [simple, pow_zero, zero_mul, zero_add, one_mul]
  exact hasDerivAt_id' 2

/-- **C93 fails.** With several liquids only the first is used: at the saturation pressure found another one is more stable than
the gas and the liquid returned. -/
theorem C93_pure_stable_fails : ∃ (l1 l2 gas : Pure) (t RT G0 d : ℝ), 0 < RT ∧ errPure [l1, l2] gas t = some (0, d, l1)
    ∧ Consistent RT G0 t gas ∧ Consistent RT G0 t l1 ∧ Consistent RT G0 t l2 ∧ l2.G t < gas.G t ∧ l2.G t < l1.G t := by
  refine ⟨simple 2 0, simple 1 0, simple 0 1, 2, 1, 0, -1, one_pos, by simp [errPure, lowest_cons, simple], ?_, ?_, ?_, ?_, ?_⟩
  · exact ⟨by simp [simple], by simp [simple]⟩
  · exact ⟨by simp [simple], by simp [simple]⟩
  · exact ⟨by simp [simple], by simp [simple]⟩
  · simp only [simple]; norm_num; exact Real.log_pos (by norm_num)
  · simp only [simple]; norm_num; exact Real.log_pos (by norm_num)

/-- **C93.** A zero of the functions for solids is an equilibrium of the first solid with the first other phase. -/
theorem C93_solid (others solids : List Pure) (o s : Pure) (t RT G0 e d : ℝ) (hRT : 0 < RT)
    (h : errSolid others solids t = some (e, d, o, s)) (ho : Consistent RT G0 t o) (hs : Consistent RT G0 t s) :
    others.head? = some o ∧ solids.head? = some s ∧ (e = 0 ↔ o.G t = s.G t) := by
  unfold errSolid at h
  cases others with
  | nil => cases solids <;> simp [lowest_nil, lowest_cons] at h
  | cons a as =>
    cases solids with
    | nil => simp [lowest_nil] at h
    | cons b bs =>
      simp only [lowest_cons, Option.some.injEq, Prod.mk.injEq] at h
      obtain ⟨he, _, ha, hb⟩ := h
      subst ha; subst hb
      refine ⟨rfl, rfl, ?_⟩
      rw [← he, sub_eq_zero, ho.2, hs.2]
      constructor
      · intro h; rw [h]
      · intro h
        exact Real.log_injOn_pos ho.1 hs.1 (mul_left_cancel₀ hRT.ne' (by linarith))

/-- **C93 fails.** Below the triple point `flash_TSF` and `flash_PSF` pass the gas before the liquids (`flash_pure_vls.py` 572-588), and
only the gas is used: at the pressure found a liquid is more stable than the gas and the solid. -/
theorem C93_solid_fails : ∃ (gas liquid solid : Pure) (t RT G0 d : ℝ), 0 < RT
    ∧ errSolid [gas, liquid] [solid] t = some (0, d, gas, solid) ∧ Consistent RT G0 t gas ∧ Consistent RT G0 t liquid
    ∧ Consistent RT G0 t solid ∧ liquid.G t < solid.G t ∧ liquid.G t < gas.G t := by
  refine ⟨simple 0 1, simple 1 0, simple 2 0, 2, 1, 0, 1, one_pos, by simp [errSolid, lowest_cons, simple], ?_, ?_, ?_, ?_, ?_⟩
  · exact ⟨by simp [simple], by simp [simple]⟩
  · exact ⟨by simp [simple], by simp [simple]⟩
  · exact ⟨by simp [simple], by simp [simple]⟩
  · simp only [simple]; norm_num; exact Real.log_pos (by norm_num)
  · simp only [simple]; norm_num; exact Real.log_pos (by norm_num)

/-! ## Dew and bubble points after Michelsen and Mollerup -/

/-- `copysign`, without negative zero. -/
noncomputable def copysign (m x : ℝ) : ℝ := if x < 0 then -|m| else |m|

/-- Feed; logarithmic fugacity coefficients and their derivatives by the variable iterated on for the phase with the feed composition and
for the phase that appears (`none` is an exception); tolerances and step limits. The update frequency is one. -/
structure MM (n : ℕ) where
  (zs : Comp n) (const : ℝ → Option (Comp n × Comp n)) (iter : Comp n → ℝ → Option (Comp n × Comp n))
  (xtol maxStep trivTol damping : ℝ)

/-- Variables of the loop. -/
structure St (n : ℕ) where
  (guess : ℝ) (old : Option ℝ) (step : ℝ) (comp : Comp n) (fails : ℕ)

/-- What is returned: the variable, the composition, and the error. -/
structure Out (n : ℕ) where
  (guess : ℝ) (comp : Comp n) (err : ℝ)

/-- One iteration: another one, the end, or an exception. -/
inductive Next (n : ℕ)
  | go (s : St n)
  | done (o : Out n)
  | error

/-- `Ks` (2095). -/
noncomputable def kOf {n : ℕ} (c i : Comp n × Comp n) : Comp n := fun j => Real.exp (c.1 j - i.1 j)

/-- `f_k` (2104). -/
noncomputable def fk {n : ℕ} (zs : Comp n) (c i : Comp n × Comp n) : ℝ := ∑ j, zs j * kOf c i j - 1

/-- `dfk_dvar` (2106-2108). -/
noncomputable def dfk {n : ℕ} (zs : Comp n) (c i : Comp n × Comp n) : ℝ := ∑ j, zs j * kOf c i j * (c.2 j - i.2 j)

/-- `comp_guess` (2096-2098). -/
noncomputable def newComp {n : ℕ} (zs : Comp n) (c i : Comp n × Comp n) : Comp n := fun j =>
  zs j * kOf c i j / ∑ k, zs k * kOf c i k

/-- Lines 2114-2116. -/
noncomputable def adjStep {n : ℕ} (p : MM n) (guess step : ℝ) : ℝ :=
  let a := copysign (min (min (p.maxStep * guess) |step|) (|step| * p.damping)) step
  if guess + a ≤ 0 then a * (1 / 2) else a

/-- Lines 2018-2022, 2084-2088. -/
noncomputable def retry {n : ℕ} (p : MM n) (s : St n) : Next n :=
  match s.old with
  | none => .error
  | some o => .go { s with fails := s.fails + 1, guess := o + copysign (min (p.maxStep * s.guess) |s.step|) s.step }

/-- One iteration (2011-2134). -/
noncomputable def iterate {n : ℕ} (p : MM n) (k : ℕ) (s : St n) : Next n :=
  match p.const s.guess with
  | none => retry p s
  | some c =>
    match p.iter s.comp s.guess with
    | none => retry p s
    | some i =>
      if 2 < s.fails then .error
      else if dfk p.zs c i = 0 then .error
      else
        let comp := newComp p.zs c i
        let step := -fk p.zs c i / dfk p.zs c i
        let guess := s.guess + adjStep p s.guess step
        let diff := ∑ j, |p.zs j - comp j|
        open Classical in
        if diff < p.trivTol ∧ k ≠ 0 ∧ ¬ ∃ j, p.zs j = 1 then .error
        else if |guess - s.guess| < p.xtol then .done ⟨s.guess, comp, |s.guess - s.guess|⟩
        else .go ⟨guess, some s.guess, step, comp, 0⟩

/-- The loop and what follows (2011-2140). -/
noncomputable def run {n : ℕ} (p : MM n) : ℕ → ℕ → St n → Option (Out n)
  | 0, _, s =>
    match s.old with
    | none => none
    | some o => if p.xtol < |s.guess - o| then none else some ⟨s.guess, s.comp, |s.guess - o|⟩
  | fuel + 1, k, s =>
    match iterate p k s with
    | .error => none
    | .done o => some o
    | .go s' => run p fuel (k + 1) s'

/-- The state before the loop (1977-2010). -/
noncomputable def start {n : ℕ} (guess : ℝ) (comp : Comp n) : St n := ⟨guess, none, (10 : ℝ) ^ 300, comp, 0⟩

/-- **C93.** The derivative is that of the error at fixed composition of the appearing phase. -/
theorem C93_mm_derivative {n : ℕ} (zs : Comp n) (c i : ℝ → Comp n) (dc di : Comp n) (t : ℝ)
    (hc : ∀ j, HasDerivAt (fun s => c s j) (dc j) t) (hi : ∀ j, HasDerivAt (fun s => i s j) (di j) t) :
    HasDerivAt (fun s => fk zs (c s, dc) (i s, di)) (dfk zs (c t, dc) (i t, di)) t := by
  unfold fk dfk kOf
  refine HasDerivAt.sub_const 1 (HasDerivAt.fun_sum fun j _ => ?_)
  exact ((((hc j).fun_sub (hi j)).exp).const_mul (zs j)).congr_deriv (by ring)

theorem copysign_abs (m x : ℝ) : |copysign m x| = |m| := by
  unfold copysign; split_ifs <;> simp

theorem fk_pos {n : ℕ} (zs : Comp n) (c i : Comp n × Comp n) (hz : ∀ j, 0 ≤ zs j) (hz1 : ∑ j, zs j = 1) :
    0 < ∑ j, zs j * kOf c i j := by
  have hex : ∃ j ∈ Finset.univ, 0 < zs j := by
    by_contra hc
    push Not at hc
    have : ∑ j, zs j ≤ 0 := Finset.sum_nonpos fun j hj => hc j hj
    linarith
  obtain ⟨j, hj, hp⟩ := hex
  exact Finset.sum_pos' (fun k _ => mul_nonneg (hz k) (Real.exp_pos _).le) ⟨j, hj, mul_pos hp (Real.exp_pos _)⟩

/-- How a composition was found: by phases at a value of the variable and an earlier composition, with the step taken from there. -/
def From {n : ℕ} (p : MM n) (g : ℝ) (comp : Comp n) (a : ℝ) : Prop :=
  ∃ w c i, p.const g = some c ∧ p.iter w g = some i ∧ dfk p.zs c i ≠ 0 ∧ comp = newComp p.zs c i
    ∧ a = adjStep p g (-fk p.zs c i / dfk p.zs c i)

/-- The invariant of the loop for phases that do not fail. -/
def Inv {n : ℕ} (p : MM n) (s : St n) : Prop := ∀ o, s.old = some o → ∃ a, s.guess = o + a ∧ From p o s.comp a

theorem run_from {n : ℕ} (p : MM n) (hc : ∀ t, p.const t ≠ none) (hi : ∀ w t, p.iter w t ≠ none) (fuel k : ℕ) (s : St n)
    (o : Out n) (hs : Inv p s) (h : run p fuel k s = some o) :
    ∃ g a, |o.guess - g| ≤ |a| ∧ |a| ≤ p.xtol ∧ o.err ≤ p.xtol ∧ From p g o.comp a := by
  induction fuel generalizing k s with
  | zero =>
    unfold run at h
    cases ho : s.old with
    | none => simp [ho] at h
    | some g =>
      simp only [ho] at h
      obtain ⟨a, ha, hf⟩ := hs g ho
      split_ifs at h with hx
      rw [Option.some.injEq] at h
      subst h
      have : s.guess - g = a := by linarith
      refine ⟨g, a, by simp [this], ?_, not_lt.1 hx, hf⟩
      rw [← this]; exact not_lt.1 hx
  | succ fuel ih =>
    unfold run at h
    generalize hit : iterate p k s = nx at h
    unfold iterate at hit
    cases hcs : p.const s.guess with
    | none => exact absurd hcs (hc _)
    | some c =>
      cases his : p.iter s.comp s.guess with
      | none => exact absurd his (hi _ _)
      | some i =>
        simp only [hcs, his] at hit
        split_ifs at hit with h1 h2 h3 h4
        · subst hit; simp at h
        · subst hit; simp at h
        · subst hit; simp at h
        · subst hit
          simp only [Option.some.injEq] at h
          subst h
          refine ⟨s.guess, _, ?_, ?_, ?_, _, c, i, hcs, his, h2, rfl, rfl⟩
          · simp
          · simpa using h4.le
          · have := h4.le
            simp only [sub_self, abs_zero]
            exact (abs_nonneg _).trans this
        · subst hit
          refine ih (k + 1) _ ?_ h
          intro o' ho'
          simp only [Option.some.injEq] at ho'
          subst ho'
          exact ⟨_, rfl, _, c, i, hcs, his, h2, rfl, rfl⟩

/-- A step that is within the tolerance was not limited, if the limit is larger than the tolerance. -/
theorem small_step {n : ℕ} (p : MM n) (g step : ℝ) (hg : 0 < g) (hm0 : 0 < p.maxStep) (hm1 : p.maxStep < 1) (hd : 0 < p.damping)
    (hd1 : p.damping ≤ 1) (hx : p.xtol < p.maxStep * g) (h : |adjStep p g step| ≤ p.xtol) : |step| * p.damping ≤ p.xtol := by
  unfold adjStep at h
  set m := min (min (p.maxStep * g) |step|) (|step| * p.damping) with hm
  have hmn : 0 ≤ m := le_min (le_min (by positivity) (abs_nonneg _)) (by positivity)
  have hmg : m ≤ p.maxStep * g := (min_le_left _ _).trans (min_le_left _ _)
  have hmg' : m < g := lt_of_le_of_lt hmg (by nlinarith)
  have hpos : ¬ g + copysign m step ≤ 0 := by
    have := neg_abs_le (copysign m step)
    rw [copysign_abs, abs_of_nonneg hmn] at this
    linarith
  dsimp only at h
  rw [if_neg hpos, copysign_abs, abs_of_nonneg hmn] at h
  rcases min_choice (min (p.maxStep * g) |step|) (|step| * p.damping) with h1 | h1
  · rcases min_choice (p.maxStep * g) |step| with h2 | h2
    · rw [hm, h1, h2] at h; linarith
    · rw [hm, h1, h2] at h
      exact (mul_le_of_le_one_right (abs_nonneg _) hd1).trans h
  · rw [hm, h1] at h; exact h

/-- **C93.** A result of `dew_bubble_Michelsen_Mollerup`, for phases that do not fail, comes from phases at a value of the variable within
the tolerance of the one returned and at some composition `w` of the appearing phase: the mole fractions returned sum to
one, and with their sum `S` before normalisation they make the fugacity of every component in the phase of feed
composition `S` times that of the returned mole fractions with the fugacity coefficients at `w`; and `S` differs from one by
at most the tolerance times the derivative. -/
theorem C93_mm_result {n : ℕ} (p : MM n) (hc : ∀ t, p.const t ≠ none) (hi : ∀ w t, p.iter w t ≠ none) (fuel : ℕ) (guess : ℝ)
    (w0 : Comp n) (o : Out n) (h : run p fuel 0 (start guess w0) = some o) (hz : ∀ j, 0 ≤ p.zs j) (hz1 : ∑ j, p.zs j = 1) :
    ∃ g w c i S, |o.guess - g| ≤ p.xtol ∧ p.const g = some c ∧ p.iter w g = some i ∧ ∑ j, o.comp j = 1 ∧ (∀ j, 0 ≤ o.comp j)
      ∧ (∀ j, p.zs j * Real.exp (c.1 j) = S * (o.comp j * Real.exp (i.1 j)))
      ∧ (0 < g → 0 < p.maxStep → p.maxStep < 1 → 0 < p.damping → p.damping ≤ 1 → p.xtol < p.maxStep * g →
          |S - 1| * p.damping ≤ p.xtol * |∑ j, S * o.comp j * (c.2 j - i.2 j)|) := by
  obtain ⟨g, a, h1, h2, _, w, c, i, hc', hi', hd, hcomp, ha⟩ := run_from p hc hi fuel 0 _ o (fun _ h => by simp [start] at h) h
  have hS := fk_pos p.zs c i hz hz1
  refine ⟨g, w, c, i, ∑ j, p.zs j * kOf c i j, h1.trans h2, hc', hi', ?_, ?_, ?_, ?_⟩
  · rw [hcomp]; unfold newComp
    rw [← Finset.sum_div, div_self hS.ne']
  · intro j; rw [hcomp]
    exact div_nonneg (mul_nonneg (hz j) (Real.exp_pos _).le) hS.le
  · intro j
    rw [hcomp]; unfold newComp
    rw [← mul_assoc, mul_div_cancel₀ _ hS.ne', kOf, mul_assoc, ← Real.exp_add]
    congr 2; ring
  · intro hg hm0 hm1 hd0 hd1 hx
    have := small_step p g _ hg hm0 hm1 hd0 hd1 hx (ha ▸ h2)
    have hdd : ∑ j, (∑ k, p.zs k * kOf c i k) * o.comp j * (c.2 j - i.2 j) = dfk p.zs c i := by
      unfold dfk
      refine Finset.sum_congr rfl fun j _ => ?_
      rw [hcomp]; unfold newComp
      rw [mul_div_cancel₀ _ hS.ne']
    rw [hdd]
    have hfk : ∑ j, p.zs j * kOf c i j - 1 = fk p.zs c i := rfl
    rw [hfk]
    rw [abs_div, abs_neg, div_mul_eq_mul_div, div_le_iff₀ (abs_pos.2 hd)] at this
    exact this

/-- A mixture of two components with a vapor of constant fugacity coefficients and a liquid of Margules type. -/
noncomputable def margules : MM 2 where
  zs := ![1 / 2, 1 / 2]
  const := fun t => some (fun _ => t - 1, fun _ => 1)
  iter := fun w _ => some (![(1 - w 0) ^ 2 - 1 / 4 - Real.log (3 / 2), (1 - w 1) ^ 2 - 1 / 4 - Real.log (1 / 2)], fun _ => 0)
  xtol := 1 / 10 ^ 10
  maxStep := 1 / 4
  trivTol := 1 / 10 ^ 7
  damping := 1

theorem margules_k : kOf (n := 2) (fun _ => 1 - 1, fun _ => 1)
    (![(1 - 1 / 2) ^ 2 - 1 / 4 - Real.log (3 / 2), (1 - 1 / 2) ^ 2 - 1 / 4 - Real.log (1 / 2)], fun _ => 0) = ![3 / 2, 1 / 2] := by
  funext j
  fin_cases j
  · show Real.exp (1 - 1 - ((1 - 1 / 2) ^ 2 - 1 / 4 - Real.log (3 / 2))) = 3 / 2
    rw [show (1 - 1 - ((1 - 1 / 2) ^ 2 - 1 / 4 - Real.log (3 / 2)) : ℝ) = Real.log (3 / 2) by ring, Real.exp_log (by norm_num)]
  · show Real.exp (1 - 1 - ((1 - 1 / 2) ^ 2 - 1 / 4 - Real.log (1 / 2))) = 1 / 2
    rw [show (1 - 1 - ((1 - 1 / 2) ^ 2 - 1 / 4 - Real.log (1 / 2)) : ℝ) = Real.log (1 / 2) by ring, Real.exp_log (by norm_num)]

theorem iterate_done {n : ℕ} (p : MM n) (k : ℕ) (s : St n) (c i : Comp n × Comp n) (hc : p.const s.guess = some c)
    (hi : p.iter s.comp s.guess = some i) (hf : s.fails ≤ 2) (hd : dfk p.zs c i ≠ 0)
    (ht : k = 0 ∨ p.trivTol ≤ ∑ j, |p.zs j - newComp p.zs c i j|)
    (hx : |adjStep p s.guess (-fk p.zs c i / dfk p.zs c i)| < p.xtol) :
    iterate p k s = .done ⟨s.guess, newComp p.zs c i, 0⟩ := by
  unfold iterate
  simp only [hc, hi]
  rw [if_neg (not_lt.2 hf), if_neg hd, if_neg, if_pos]
  · simp
  · simpa using hx
  · rintro ⟨h1, h2, _⟩
    rcases ht with h | h
    · exact h2 h
    · exact absurd h1 (not_lt.2 h)

theorem margules_run (fuel : ℕ) : run margules (fuel + 1) 0 (start 1 ![1 / 2, 1 / 2]) = some ⟨1, ![3 / 4, 1 / 4], 0⟩ := by
  have hk := margules_k
  have h1 : fk (n := 2) ![1 / 2, 1 / 2] (fun _ => 1 - 1, fun _ => 1)
      (![(1 - 1 / 2) ^ 2 - 1 / 4 - Real.log (3 / 2), (1 - 1 / 2) ^ 2 - 1 / 4 - Real.log (1 / 2)], fun _ => 0) = 0 := by
    unfold fk; rw [hk]; simp [Fin.sum_univ_two]; norm_num
  have h2 : dfk (n := 2) ![1 / 2, 1 / 2] (fun _ => 1 - 1, fun _ => 1)
      (![(1 - 1 / 2) ^ 2 - 1 / 4 - Real.log (3 / 2), (1 - 1 / 2) ^ 2 - 1 / 4 - Real.log (1 / 2)], fun _ => 0) = 1 := by
    unfold dfk; rw [hk]; simp [Fin.sum_univ_two]; norm_num
  have h3 : newComp (n := 2) ![1 / 2, 1 / 2] (fun _ => 1 - 1, fun _ => 1)
      (![(1 - 1 / 2) ^ 2 - 1 / 4 - Real.log (3 / 2), (1 - 1 / 2) ^ 2 - 1 / 4 - Real.log (1 / 2)], fun _ => 0) = ![3 / 4, 1 / 4] := by
    unfold newComp; rw [hk]
    funext j
    fin_cases j <;> simp [Fin.sum_univ_two] <;> norm_num
  have h4 : adjStep margules 1 0 = 0 := by
    unfold adjStep copysign margules
    norm_num
  have hit := iterate_done margules 0 (start 1 ![1 / 2, 1 / 2]) (fun _ => 1 - 1, fun _ => 1)
    (![(1 - 1 / 2) ^ 2 - 1 / 4 - Real.log (3 / 2), (1 - 1 / 2) ^ 2 - 1 / 4 - Real.log (1 / 2)], fun _ => 0) rfl rfl (by simp [start])
    (by rw [show margules.zs = ![1 / 2, 1 / 2] from rfl, h2]; norm_num) (Or.inl rfl)
    (by
      rw [show margules.zs = ![1 / 2, 1 / 2] from rfl, h2, h1, show (start (n := 2) 1 ![1 / 2, 1 / 2]).guess = 1 from rfl,
        show (-0 / 1 : ℝ) = 0 by norm_num, h4]
      norm_num [margules])
  unfold run
  rw [hit, show margules.zs = ![1 / 2, 1 / 2] from rfl, h3]
  rfl

/-- The premises of the theorem above are met: all its conditions hold in this mixture. -/
example : ∃ o, run margules 200 0 (start 1 ![1 / 2, 1 / 2]) = some o ∧ (∀ t, margules.const t ≠ none) ∧ (∀ w t, margules.iter w t ≠ none)
    ∧ (∀ j, 0 ≤ margules.zs j) ∧ ∑ j, margules.zs j = 1 ∧ margules.xtol < margules.maxStep * o.guess := by
  refine ⟨_, margules_run 199, by simp [margules], by simp [margules], ?_, ?_, by norm_num [margules]⟩
  · intro j; fin_cases j <;> simp [margules]
  · simp [margules, Fin.sum_univ_two]; norm_num

/-- **C93 fails.** Convergence of the composition is not tested: from the feed composition as guess a dew point of a Margules liquid is
returned after one iteration with error zero although at the returned composition the fugacities of both components differ
by more than a tenth from those in the vapor. -/
theorem C93_mm_fails : ∃ (p : MM 2) (o : Out 2) (c i : Comp 2 × Comp 2), run p 200 0 (start 1 p.zs) = some o ∧ o.err = 0
    ∧ p.const o.guess = some c ∧ p.iter o.comp o.guess = some i
    ∧ o.comp 0 * Real.exp (i.1 0) < 9 / 10 * (p.zs 0 * Real.exp (c.1 0))
    ∧ 11 / 10 * (p.zs 1 * Real.exp (c.1 1)) < o.comp 1 * Real.exp (i.1 1) := by
  refine ⟨margules, ⟨1, ![3 / 4, 1 / 4], 0⟩, _, _, margules_run 199, rfl, rfl, rfl, ?_, ?_⟩
  · show (3 / 4 : ℝ) * Real.exp ((1 - 3 / 4) ^ 2 - 1 / 4 - Real.log (3 / 2)) < 9 / 10 * (1 / 2 * Real.exp (1 - 1))
    rw [Real.exp_sub, Real.exp_log (by norm_num), sub_self, Real.exp_zero]
    have h : Real.exp ((1 - 3 / 4) ^ 2 - 1 / 4) * Real.exp (3 / 16) = 1 := by
      rw [← Real.exp_add, ← Real.exp_zero]; congr 1; norm_num
    have h1 : (1 + 3 / 16 : ℝ) ≤ Real.exp (3 / 16) := by linarith [Real.add_one_le_exp (3 / 16 : ℝ)]
    have h2 : 0 < Real.exp (((1 - 3 / 4) ^ 2 - 1 / 4 : ℝ)) := Real.exp_pos _
    have h3 : Real.exp ((1 - 3 / 4) ^ 2 - 1 / 4) ≤ 16 / 19 := by nlinarith
    linarith
  · show 11 / 10 * (1 / 2 * Real.exp (1 - 1)) < (1 / 4 : ℝ) * Real.exp ((1 - 1 / 4) ^ 2 - 1 / 4 - Real.log (1 / 2))
    rw [Real.exp_sub ((1 - 1 / 4) ^ 2 - 1 / 4), Real.exp_log (by norm_num), sub_self, Real.exp_zero]
    have h1 := Real.add_one_le_exp ((1 - 1 / 4) ^ 2 - 1 / 4 : ℝ)
    linarith

/-! ### Steps -/

/-- Values of the variable that are tried stay positive. -/
def Pos {n : ℕ} (s : St n) : Prop := 0 < s.guess ∧ ∀ o, s.old = some o → 0 < o ∧ (s.step < 0 → s.guess ≤ o)

theorem retry_pos {n : ℕ} (p : MM n) (s s' : St n) (hs : Pos s) (hm0 : 0 < p.maxStep) (hm1 : p.maxStep < 1) (h : retry p s = .go s') :
    Pos s' := by
  unfold retry at h
  cases ho : s.old with
  | none => simp [ho] at h
  | some o =>
    simp only [ho, Next.go.injEq] at h
    obtain ⟨hp, hold⟩ := hs
    obtain ⟨ho0, hle⟩ := hold o ho
    have hmn : 0 ≤ min (p.maxStep * s.guess) |s.step| := le_min (by positivity) (abs_nonneg _)
    subst h
    simp only [Pos, ho, Option.some.injEq]
    unfold copysign
    rw [abs_of_nonneg hmn]
    split_ifs with hneg
    · have h1 := hle hneg
      have h2 : min (p.maxStep * s.guess) |s.step| ≤ p.maxStep * s.guess := min_le_left _ _
      refine ⟨by nlinarith, fun o' ho' => ?_⟩
      subst ho'
      exact ⟨ho0, fun _ => by linarith⟩
    · refine ⟨by linarith, fun o' ho' => ?_⟩
      subst ho'
      exact ⟨ho0, fun h => absurd h hneg⟩

theorem step_pos {n : ℕ} (p : MM n) (g step : ℝ) (hg : 0 < g) (hm0 : 0 < p.maxStep) (hm1 : p.maxStep < 1) (hd : 0 ≤ p.damping) :
    0 < g + adjStep p g step ∧ (step < 0 → g + adjStep p g step ≤ g) := by
  unfold adjStep
  set m := min (min (p.maxStep * g) |step|) (|step| * p.damping) with hm
  have hmn : 0 ≤ m := le_min (le_min (by positivity) (abs_nonneg _)) (by positivity)
  have hmg : m ≤ p.maxStep * g := (min_le_left _ _).trans (min_le_left _ _)
  have hmg' : m < g := lt_of_le_of_lt hmg (by nlinarith)
  have hc := neg_abs_le (copysign m step)
  rw [copysign_abs, abs_of_nonneg hmn] at hc
  dsimp only
  rw [if_neg (by linarith)]
  refine ⟨by linarith, fun hneg => ?_⟩
  unfold copysign
  rw [if_pos hneg, abs_of_nonneg hmn]
  linarith

theorem iterate_pos {n : ℕ} (p : MM n) (k : ℕ) (s s' : St n) (hs : Pos s) (hm0 : 0 < p.maxStep) (hm1 : p.maxStep < 1)
    (hd : 0 ≤ p.damping) (h : iterate p k s = .go s') : Pos s' := by
  unfold iterate at h
  cases hc : p.const s.guess with
  | none => simp only [hc] at h; exact retry_pos p s s' hs hm0 hm1 h
  | some c =>
    simp only [hc] at h
    cases hi : p.iter s.comp s.guess with
    | none => simp only [hi] at h; exact retry_pos p s s' hs hm0 hm1 h
    | some i =>
      simp only [hi] at h
      split_ifs at h
      simp only [Next.go.injEq] at h
      subst h
      obtain ⟨h1, h2⟩ := step_pos p s.guess (-fk p.zs c i / dfk p.zs c i) hs.1 hm0 hm1 hd
      refine ⟨h1, fun o ho => ?_⟩
      simp only [Option.some.injEq] at ho
      subst ho
      exact ⟨hs.1, h2⟩

/-- **C93.** From a positive guess only positive temperatures or pressures are ever tried: what the phases do elsewhere does not
matter. -/
theorem C93_mm_positive {n : ℕ} (p q : MM n) (hq : q = { p with const := q.const, iter := q.iter }) (hm0 : 0 < p.maxStep)
    (hm1 : p.maxStep < 1) (hd : 0 ≤ p.damping) (hc : ∀ t, 0 < t → p.const t = q.const t)
    (hi : ∀ w t, 0 < t → p.iter w t = q.iter w t) (fuel k : ℕ) (s : St n) (hs : Pos s) : run p fuel k s = run q fuel k s := by
  have hz : q.zs = p.zs := by rw [hq]
  have hx : q.xtol = p.xtol := by rw [hq]
  have hm : q.maxStep = p.maxStep := by rw [hq]
  have ht : q.trivTol = p.trivTol := by rw [hq]
  have hdd : q.damping = p.damping := by rw [hq]
  have hadj : adjStep q = adjStep p := by funext g st; unfold adjStep; rw [hm, hdd]
  induction fuel generalizing k s with
  | zero => unfold run; rw [hx]
  | succ fuel ih =>
    have hit : iterate q k s = iterate p k s := by
      unfold iterate
      rw [hc _ hs.1, hi _ _ hs.1, hz, hx, ht, hadj]
      unfold retry
      rw [hm]
    unfold run
    rw [hit]
    cases hn : iterate p k s with
    | error => rfl
    | done o => rfl
    | go s' => exact ih (k + 1) s' (iterate_pos p k s s' hs hm0 hm1 hd hn)

/-- The premise of the theorem above is met at the start. -/
example (g : ℝ) (hg : 0 < g) : Pos (start (n := 2) g ![1 / 2, 1 / 2]) := ⟨hg, fun _ h => by simp [start] at h⟩

/-- **C93 fails.** After a step at whose end the phases cannot be calculated the same step is tried again: if the step was not limited,
the loop ends without a result, however many iterations are allowed. -/
theorem C93_mm_retry_fails {n : ℕ} (p : MM n) (s : St n) (o : ℝ) (ho : s.old = some o) (hg : s.guess = o + s.step)
    (hl : |s.step| ≤ p.maxStep * s.guess) (hx : p.xtol < |s.step|) (hc : p.const s.guess = none) (fuel k : ℕ) :
    run p fuel k s = none := by
  induction fuel generalizing k s with
  | zero =>
    unfold run
    simp only [ho]
    rw [if_pos]
    rw [hg]; simpa using hx
  | succ fuel ih =>
    have hcs : copysign (min (p.maxStep * s.guess) |s.step|) s.step = s.step := by
      rw [min_eq_right hl]
      unfold copysign
      split_ifs with h
      · rw [abs_abs, abs_of_neg h]; ring
      · rw [abs_abs, abs_of_nonneg (not_lt.1 h)]
    unfold run
    have : iterate p k s = .go { s with fails := s.fails + 1, guess := o + s.step } := by
      unfold iterate
      simp only [hc]
      unfold retry
      simp only [ho, hcs]
    rw [this]
    refine ih _ ?_ ?_ ?_ ?_ ?_ (k + 1)
    · exact ho
    · rfl
    · simpa [← hg] using hl
    · exact hx
    · simpa [← hg] using hc

/-- Such states are reached: a vapor that exists below temperature 1.1 only. -/
noncomputable def edge : MM 1 where
  zs := ![1]
  const := fun t => if t < 11 / 10 then some (![-Real.log 2], ![4]) else none
  iter := fun _ _ => some (![0], ![0])
  xtol := 1 / 10 ^ 10
  maxStep := 1 / 2
  trivTol := 1 / 10 ^ 7
  damping := 1

example : ∃ s o, iterate edge 0 (start 1 ![1]) = .go s ∧ s.old = some o ∧ s.guess = o + s.step ∧ |s.step| ≤ edge.maxStep * s.guess
    ∧ edge.xtol < |s.step| ∧ edge.const s.guess = none := by
  have hk : kOf (n := 1) (![-Real.log 2], ![4]) (![0], ![0]) = ![1 / 2] := by
    funext j; fin_cases j
    show Real.exp (-Real.log 2 - 0) = 1 / 2
    rw [sub_zero, Real.exp_neg, Real.exp_log (by norm_num)]; norm_num
  have h1 : fk (n := 1) ![1] (![-Real.log 2], ![4]) (![0], ![0]) = -1 / 2 := by unfold fk; rw [hk]; simp; norm_num
  have h2 : dfk (n := 1) ![1] (![-Real.log 2], ![4]) (![0], ![0]) = 2 := by unfold dfk; rw [hk]; simp; norm_num
  have h3 : -fk (n := 1) ![1] (![-Real.log 2], ![4]) (![0], ![0]) / dfk (n := 1) ![1] (![-Real.log 2], ![4]) (![0], ![0]) = 1 / 4 := by
    rw [h1, h2]; norm_num
  have h4 : adjStep edge 1 (1 / 4) = 1 / 4 := by
    unfold adjStep copysign edge
    norm_num
  refine ⟨⟨5 / 4, some 1, 1 / 4, newComp ![1] (![-Real.log 2], ![4]) (![0], ![0]), 0⟩, 1, ?_, rfl, by norm_num, ?_, ?_, ?_⟩
  · unfold iterate
    have hc : edge.const (start 1 ![1]).guess = some (![-Real.log 2], ![4]) := by
      show (if (1 : ℝ) < 11 / 10 then _ else _) = _
      rw [if_pos (by norm_num)]
    have hi : edge.iter (start 1 ![1]).comp (start 1 ![1]).guess = some (![0], ![0]) := rfl
    simp only [hc, hi]
    rw [show edge.zs = ![1] from rfl, show (start (n := 1) 1 ![1]).guess = 1 from rfl, h3, h4, if_neg (by simp [start]),
      if_neg (by rw [h2]; norm_num), if_neg (by simp), if_neg (by norm_num [edge])]
    norm_num
  · norm_num [edge]
  · norm_num [edge]
  · show (if (5 / 4 : ℝ) < 11 / 10 then _ else _) = _
    rw [if_neg (by norm_num)]

/-! ### The four older functions -/

/-- `f_k` of `bubble_T_Michelsen_Mollerup` and `bubble_P_Michelsen_Mollerup` (2330-2335, 2482-2487) from what liquid and gas return. -/
noncomputable def bubbleF {n : ℕ} (zs : Comp n) (l g : Comp n × Comp n) : ℝ := ∑ i, zs i * Real.exp (l.1 i - g.1 i) - 1

/-- Their derivative (2337-2339, 2489-2491). -/
noncomputable def bubbleD {n : ℕ} (zs : Comp n) (l g : Comp n × Comp n) : ℝ :=
  ∑ i, zs i * Real.exp (l.1 i - g.1 i) * (l.2 i - g.2 i)

/-- `xs` of `dew_T_Michelsen_Mollerup` and `dew_P_Michelsen_Mollerup` (2406-2407, 2554-2555). -/
noncomputable def dewX {n : ℕ} (zs : Comp n) (l g : Comp n × Comp n) : Comp n := fun i => zs i / Real.exp (l.1 i - g.1 i)

/-- Their `f_k` (2412, 2559). -/
noncomputable def dewF {n : ℕ} (zs : Comp n) (l g : Comp n × Comp n) : ℝ := ∑ i, dewX zs l g i - 1

/-- Their derivative (2414-2416, 2561-2563). -/
noncomputable def dewD {n : ℕ} (zs : Comp n) (l g : Comp n × Comp n) : ℝ := ∑ i, dewX zs l g i * (g.2 i - l.2 i)

theorem dewX_eq {n : ℕ} (zs : Comp n) (l g : Comp n × Comp n) (i : Fin n) : dewX zs l g i = zs i * kOf g l i := by
  unfold dewX kOf
  rw [div_eq_mul_inv, ← Real.exp_neg, neg_sub]

/-- **C93.** The derivatives of the four functions are those of their errors at fixed composition of the appearing phase. -/
theorem C93_old_derivative {n : ℕ} (zs : Comp n) (l g : ℝ → Comp n) (dl dg : Comp n) (t : ℝ)
    (hl : ∀ j, HasDerivAt (fun s => l s j) (dl j) t) (hg : ∀ j, HasDerivAt (fun s => g s j) (dg j) t) :
    HasDerivAt (fun s => bubbleF zs (l s, dl) (g s, dg)) (bubbleD zs (l t, dl) (g t, dg)) t
      ∧ HasDerivAt (fun s => dewF zs (l s, dl) (g s, dg)) (dewD zs (l t, dl) (g t, dg)) t := by
  refine ⟨C93_mm_derivative zs l g dl dg t hl hg, ?_⟩
  have h := C93_mm_derivative zs g l dg dl t hg hl
  have h1 : (fun s => dewF zs (l s, dl) (g s, dg)) = fun s => fk zs (g s, dg) (l s, dl) := by
    funext s
    unfold dewF fk
    rw [Finset.sum_congr rfl fun i _ => dewX_eq zs (l s, dl) (g s, dg) i]
  have h2 : dewD zs (l t, dl) (g t, dg) = dfk zs (g t, dg) (l t, dl) := by
    unfold dewD dfk
    exact Finset.sum_congr rfl fun i _ => by rw [dewX_eq]
  rw [h1, h2]
  exact h

/-- **C93.** Zeros are bubble and dew points for the fugacity coefficients used: there are mole fractions of the appearing phase that sum
to one and make all fugacities equal. -/
theorem C93_old_zero {n : ℕ} (zs : Comp n) (l g : Comp n × Comp n) :
    (bubbleF zs l g = 0 ↔ ∃ y : Comp n, ∑ i, y i = 1 ∧ ∀ i, y i * Real.exp (g.1 i) = zs i * Real.exp (l.1 i))
      ∧ (dewF zs l g = 0 ↔ ∃ x : Comp n, ∑ i, x i = 1 ∧ ∀ i, x i * Real.exp (l.1 i) = zs i * Real.exp (g.1 i)) := by
  have key : ∀ a b : Comp n × Comp n, (∑ i, zs i * kOf a b i = 1 ↔
      ∃ y : Comp n, ∑ i, y i = 1 ∧ ∀ i, y i * Real.exp (b.1 i) = zs i * Real.exp (a.1 i)) := by
    intro a b
    have hk : ∀ i, zs i * kOf a b i * Real.exp (b.1 i) = zs i * Real.exp (a.1 i) := by
      intro i
      unfold kOf
      rw [mul_assoc, ← Real.exp_add]
      congr 2; ring
    constructor
    · intro h
      exact ⟨fun i => zs i * kOf a b i, h, hk⟩
    · rintro ⟨y, hy, h⟩
      refine (Finset.sum_congr rfl fun i _ => ?_).trans hy
      exact mul_right_cancel₀ (Real.exp_pos (b.1 i)).ne' ((hk i).trans (h i).symm)
  refine ⟨?_, ?_⟩
  · rw [← key l g]; unfold bubbleF kOf; rw [sub_eq_zero]
  · rw [← key g l]; unfold dewF
    rw [sub_eq_zero, Finset.sum_congr rfl fun i _ => dewX_eq zs l g i]

/-- A bubble point of two components. -/
example : bubbleF (n := 2) ![1 / 2, 1 / 2] (![Real.log 3, Real.log 1], 0) (![Real.log 2, Real.log 2], 0) = 0 := by
  unfold bubbleF
  simp only [Fin.sum_univ_two, Matrix.cons_val_zero, Matrix.cons_val_one, Real.exp_sub]
  rw [Real.exp_log (by norm_num), Real.exp_log (by norm_num), Real.exp_log (by norm_num)]
  norm_num

/-- Which phase could not be calculated. -/
inductive Failed
  | gas
  | liquid

/-- The guess after a failure (2312, 2323, 2388, 2399, 2464, 2475, 2536, 2547): with a liquid that failed the functions for pressure assign
a variable that is not used. -/
noncomputable def oldRetry (isP : Bool) (who : Failed) (maxStep guess old step : ℝ) : ℝ :=
  match isP, who with
  | true, .liquid => guess
  | _, _ => old + copysign (min maxStep |step|) step

/-- The guess after a step (2346, 2423, 2496, 2568). -/
noncomputable def oldStep (maxStep old step : ℝ) : ℝ := old + copysign (min maxStep |step|) step

/-- **C93.** A step of these functions goes in the direction of the Newton step and is at most as long as it and as the limit. -/
theorem C93_old_step (maxStep old step : ℝ) (hm : 0 ≤ maxStep) :
    |oldStep maxStep old step - old| ≤ maxStep ∧ |oldStep maxStep old step - old| ≤ |step|
      ∧ 0 ≤ (oldStep maxStep old step - old) * step ∧ (|step| ≤ maxStep → oldStep maxStep old step = old + step) := by
  have hmn : 0 ≤ min maxStep |step| := le_min hm (abs_nonneg _)
  have he : oldStep maxStep old step - old = copysign (min maxStep |step|) step := by unfold oldStep; ring
  refine ⟨?_, ?_, ?_, ?_⟩
  · rw [he, copysign_abs, abs_of_nonneg hmn]; exact min_le_left _ _
  · rw [he, copysign_abs, abs_of_nonneg hmn]; exact min_le_right _ _
  · rw [he]; unfold copysign
    rw [abs_of_nonneg hmn]
    split_ifs with h
    · nlinarith
    · exact mul_nonneg hmn (not_lt.1 h)
  · intro h
    unfold oldStep copysign
    rw [min_eq_right h, abs_abs]
    split_ifs with h0
    · rw [abs_of_neg h0]; ring
    · rw [abs_of_nonneg (not_lt.1 h0)]

example : oldStep 5 300 (-20) = 295 := by
  unfold oldStep copysign
  rw [if_pos (by norm_num), min_eq_left (by rw [abs_of_neg] <;> norm_num)]
  norm_num

/-- **C93 fails.** None of the four functions tries another value after a failure: it repeats the one that failed. -/
theorem C93_old_retry_fails (isP : Bool) (who : Failed) (maxStep old step : ℝ) :
    oldRetry isP who maxStep (oldStep maxStep old step) old step = oldStep maxStep old step := by
  cases isP <;> cases who <;> rfl

/-! ### Two liquids and an appearing phase -/

/-- `err_SS` of `existence_3P_Michelsen_Mollerup` (2262-2274): `Kss` are the ratios of the liquids, `Ks` those of the appearing phase. -/
noncomputable def errSS {n : ℕ} (Kss Ks x0 x1 : Comp n) : ℝ :=
  open Classical in
  if ∃ i, x1 i = 0 then ∑ i, if x1 i = 0 then 0 else (Ks i * x0 i / x1 i - 1) * (Ks i * x0 i / x1 i - 1)
  else ∑ i, (Kss i * x0 i / x1 i - 1) * (Kss i * x0 i / x1 i - 1)

/-- **C93.** If all components are in the second liquid, the error of the liquids is zero exactly if their fugacities agree. -/
theorem C93_liquids {n : ℕ} (l0 l1 lv x0 x1 : Comp n) (hx : ∀ i, x1 i ≠ 0) :
    errSS (fun i => Real.exp (l0 i - l1 i)) (fun i => Real.exp (l0 i - lv i)) x0 x1 = 0
      ↔ ∀ i, x0 i * Real.exp (l0 i) = x1 i * Real.exp (l1 i) := by
  unfold errSS
  rw [if_neg (by push Not; exact hx), Finset.sum_eq_zero_iff_of_nonneg fun i _ => mul_self_nonneg _]
  refine ⟨fun h i => ?_, fun h i _ => ?_⟩
  · have h1 := mul_self_eq_zero.1 (h i (Finset.mem_univ i))
    dsimp only at h1
    rw [sub_eq_zero, div_eq_one_iff_eq (hx i), Real.exp_sub, div_mul_eq_mul_div, div_eq_iff (Real.exp_pos _).ne'] at h1
    linarith
  · dsimp only
    rw [mul_self_eq_zero, sub_eq_zero, div_eq_one_iff_eq (hx i), Real.exp_sub, div_mul_eq_mul_div,
      div_eq_iff (Real.exp_pos _).ne']
    linarith [h i]

example : errSS (n := 2) (fun i => Real.exp ((![Real.log 3, 0] : Comp 2) i - (![0, Real.log 3] : Comp 2) i)) (fun _ => 1)
    ![1 / 4, 3 / 4] ![3 / 4, 1 / 4] = 0 := by
  have := (C93_liquids (n := 2) ![Real.log 3, 0] ![0, Real.log 3] ![Real.log 3, 0] ![1 / 4, 3 / 4] ![3 / 4, 1 / 4]
    (by intro i; fin_cases i <;> simp)).2 (by
      intro i
      fin_cases i
      · show (1 / 4 : ℝ) * Real.exp (Real.log 3) = 3 / 4 * Real.exp 0
        rw [Real.exp_log (by norm_num), Real.exp_zero]; norm_num
      · show (3 / 4 : ℝ) * Real.exp 0 = 1 / 4 * Real.exp (Real.log 3)
        rw [Real.exp_log (by norm_num), Real.exp_zero]; norm_num)
  simpa using this

/-- **C93 fails.** With a component that is absent from the second liquid the ratios of the appearing phase are used: liquids in
equilibrium have an error and liquids out of equilibrium have none. -/
theorem C93_liquids_fails : ∃ (Kss Ks x0 x1 : Comp 3), (∀ i, Kss i * x0 i = x1 i) ∧ errSS Kss Ks x0 x1 ≠ 0
    ∧ ∃ Kss' : Comp 3, Kss' 0 * x0 0 ≠ x1 0 ∧ errSS Kss' Kss x0 x1 = 0 := by
  refine ⟨![3, 1 / 3, 1], ![1, 1, 1], ![1 / 4, 3 / 4, 0], ![3 / 4, 1 / 4, 0], ?_, ?_, ![1, 1, 1], ?_, ?_⟩
  · intro i; fin_cases i <;> simp <;> norm_num
  · unfold errSS
    rw [if_pos ⟨2, rfl⟩]
    simp [Fin.sum_univ_three]
    norm_num
  · simp; norm_num
  · unfold errSS
    rw [if_pos ⟨2, rfl⟩]
    simp [Fin.sum_univ_three]
    norm_num

/-! ## `K` values that do not depend on composition -/

/-- The error of `to_solve` (3487-3493, 3547-3553). -/
noncomputable def errIG {n : ℕ} (VF : ℝ) (zs K : Comp n) : ℝ :=
  ∑ i, (K i - 1) * (1 / (VF * (K i - 1) + 1) * zs i)

/-- Its derivative (3494, 3554), with the derivatives of the fugacity coefficients. -/
noncomputable def derrIG {n : ℕ} (VF : ℝ) (zs K dK : Comp n) : ℝ :=
  ∑ i, 1 / (VF * (K i - 1) + 1) * zs i * (1 - VF * (K i - 1) * (1 / (VF * (K i - 1) + 1))) * dK i

/-- `P_bub` (3502-3506) from the coefficients at the pressure `P_base`. -/
noncomputable def pBub {n : ℕ} (zs phi : Comp n) (base : ℝ) : ℝ := (∑ i, phi i * zs i) * base

/-- `P_dew` (3505-3507). -/
noncomputable def pDew {n : ℕ} (zs phi : Comp n) (base : ℝ) : ℝ := 1 / ∑ i, zs i / (phi i * base)

/-- `P_guess` (3508). -/
noncomputable def pGuess (VF dew bub : ℝ) : ℝ := VF * dew + (1 - VF) * bub

/-- Mole fractions (3524-3527, 3572-3575). -/
noncomputable def igX {n : ℕ} (VF : ℝ) (zs K : Comp n) : Comp n := fun i => zs i / (1 + VF * (K i - 1))
/-- Line 3526. -/
noncomputable def igY {n : ℕ} (VF : ℝ) (zs K : Comp n) : Comp n := fun i => K i * igX VF zs K i

theorem errIG_rr {n : ℕ} (VF : ℝ) (zs K : Comp n) : errIG VF zs K = rr zs K VF := by
  unfold errIG rr
  refine Finset.sum_congr rfl fun i _ => ?_
  rw [add_comm (VF * (K i - 1)) 1]
  ring

/-- **C93.** The derivative passed to `newton`, by the logarithm of pressure or by temperature, is that of the error. -/
theorem C93_ig_derivative {n : ℕ} (VF : ℝ) (zs : Comp n) (phi : ℝ → Comp n) (dphi : Comp n) (t : ℝ)
    (hd : ∀ i, VF * (phi t i - 1) + 1 ≠ 0) (h : ∀ i, HasDerivAt (fun s => phi s i) (dphi i) t) :
    HasDerivAt (fun s => errIG VF zs (phi s)) (derrIG VF zs (phi t) dphi) t
      ∧ (0 < t → HasDerivAt (fun u => errIG VF zs (phi (Real.exp u))) (t * derrIG VF zs (phi t) dphi) (Real.log t)) := by
  have h1 : HasDerivAt (fun s => errIG VF zs (phi s)) (derrIG VF zs (phi t) dphi) t := by
    unfold errIG derrIG
    refine HasDerivAt.fun_sum fun i _ => ?_
    have hk := (h i).sub_const 1
    have hi := (((hk.const_mul VF).add_const 1).fun_inv (hd i)).congr_deriv rfl
    have := hk.fun_mul (hi.mul_const (zs i))
    simp only [one_div]
    refine this.congr_deriv ?_
    have := hd i
    field_simp
    ring
  refine ⟨h1, fun ht => ?_⟩
  have he : HasDerivAt Real.exp t (Real.log t) := by
    have := Real.hasDerivAt_exp (Real.log t)
    rwa [Real.exp_log ht] at this
  have h2 : HasDerivAt (fun s => errIG VF zs (phi s)) (derrIG VF zs (phi t) dphi) (Real.exp (Real.log t)) := by
    rw [Real.exp_log ht]; exact h1
  exact (h2.comp (Real.log t) he).congr_deriv (by ring)

/-- **C93.** At a zero of the error the phases make up the feed with the specified vapor fraction, their mole fractions sum to one,
and fugacities agree. -/
theorem C93_ig_zero {n : ℕ} (VF P : ℝ) (zs K : Comp n) (hz : ∑ i, zs i = 1) (hd : ∀ i, 1 + VF * (K i - 1) ≠ 0)
    (h : errIG VF zs K = 0) :
    (∀ i, VF * igY VF zs K i + (1 - VF) * igX VF zs K i = zs i) ∧ ∑ i, igX VF zs K i = 1 ∧ ∑ i, igY VF zs K i = 1
      ∧ ∀ i, igY VF zs K i * P = igX VF zs K i * K i * P := by
  obtain ⟨h1, h2, h3⟩ := Verif.FlashNewton.rr_zero zs K VF hd hz (errIG_rr VF zs K ▸ h)
  exact ⟨h1, h2, h3, fun i => by unfold igY; ring⟩

/-- Fugacity coefficients of an ideal liquid with saturation pressures `c` over an ideal gas. -/
noncomputable def raoult {n : ℕ} (c : Comp n) (P : ℝ) : Comp n := fun i => c i / P

theorem raoult_den {n : ℕ} (c : Comp n) (VF P : ℝ) (hc : ∀ i, 0 < c i) (hP : 0 < P) (h0 : 0 ≤ VF) (h1 : VF ≤ 1) (i : Fin n) :
    0 < 1 + VF * (raoult c P i - 1) := by
  have : 0 < raoult c P i := div_pos (hc i) hP
  nlinarith [mul_nonneg h0 this.le]

theorem sum_pos_of {n : ℕ} (zs a : Comp n) (hz : ∀ i, 0 ≤ zs i) (hz1 : ∑ i, zs i = 1) (ha : ∀ i, 0 < a i) : 0 < ∑ i, a i * zs i := by
  have := fk_pos zs (fun i => Real.log (a i), 0) (0, 0) hz hz1
  refine lt_of_lt_of_eq this (Finset.sum_congr rfl fun i _ => ?_)
  unfold kOf
  simp only [Pi.zero_apply, sub_zero]
  rw [Real.exp_log (ha i)]; ring

/-- **C93.** The bubble and dew pressures from one evaluation do not depend on the pressure of that evaluation and are exact; the dew
pressure is not above the bubble pressure, and the guess is between them. -/
theorem C93_ig_bounds {n : ℕ} (zs c : Comp n) (base VF : ℝ) (hz : ∀ i, 0 ≤ zs i) (hz1 : ∑ i, zs i = 1) (hc : ∀ i, 0 < c i)
    (hb : 0 < base) (h0 : 0 ≤ VF) (h1 : VF ≤ 1) :
    let bub := pBub zs (raoult c base) base
    let dew := pDew zs (raoult c base) base
    bub = ∑ i, zs i * c i ∧ errIG 0 zs (raoult c bub) = 0 ∧ errIG 1 zs (raoult c dew) = 0 ∧ 0 < dew ∧ dew ≤ bub
      ∧ dew ≤ pGuess VF dew bub ∧ pGuess VF dew bub ≤ bub := by
  intro bub dew
  have hbub : bub = ∑ i, zs i * c i := by
    show (∑ i, raoult c base i * zs i) * base = _
    rw [Finset.sum_mul]
    refine Finset.sum_congr rfl fun i _ => ?_
    unfold raoult
    field_simp
  have hdew : dew = 1 / ∑ i, zs i / c i := by
    show 1 / ∑ i, zs i / (raoult c base i * base) = _
    congr 1
    refine Finset.sum_congr rfl fun i _ => ?_
    unfold raoult
    rw [div_mul_cancel₀ _ hb.ne']
  have hS : 0 < ∑ i, zs i * c i := by
    have := sum_pos_of zs c hz hz1 hc
    simpa [mul_comm] using this
  have hD : 0 < ∑ i, zs i / c i := by
    have := sum_pos_of zs (fun i => 1 / c i) hz hz1 (fun i => one_div_pos.2 (hc i))
    refine lt_of_lt_of_eq this (Finset.sum_congr rfl fun i _ => by ring)
  have hdew0 : 0 < dew := by rw [hdew]; exact one_div_pos.2 hD
  have hbub0 : 0 < bub := by rw [hbub]; exact hS
  have hle : dew ≤ bub := by
    rw [hdew, hbub, div_le_iff₀ hD]
    have hcs := Finset.sum_mul_sq_le_sq_mul_sq Finset.univ (fun i => Real.sqrt (zs i * c i)) (fun i => Real.sqrt (zs i / c i))
    have e1 : ∑ i, Real.sqrt (zs i * c i) * Real.sqrt (zs i / c i) = 1 := by
      refine (Finset.sum_congr rfl fun i _ => ?_).trans hz1
      rw [← Real.sqrt_mul (mul_nonneg (hz i) (hc i).le)]
      have := hc i
      rw [show zs i * c i * (zs i / c i) = zs i * zs i by field_simp, Real.sqrt_mul_self (hz i)]
    have e2 : ∑ i, Real.sqrt (zs i * c i) ^ 2 = ∑ i, zs i * c i :=
      Finset.sum_congr rfl fun i _ => Real.sq_sqrt (mul_nonneg (hz i) (hc i).le)
    have e3 : ∑ i, Real.sqrt (zs i / c i) ^ 2 = ∑ i, zs i / c i :=
      Finset.sum_congr rfl fun i _ => Real.sq_sqrt (div_nonneg (hz i) (hc i).le)
    rw [e1, e2, e3] at hcs
    linarith
  refine ⟨hbub, ?_, ?_, hdew0, hle, ?_, ?_⟩
  · unfold errIG raoult
    have : ∀ i, (c i / bub - 1) * (1 / (0 * (c i / bub - 1) + 1) * zs i) = zs i * c i / bub - zs i := by
      intro i; simp only [zero_mul, zero_add]; ring
    rw [Finset.sum_congr rfl fun i _ => this i, Finset.sum_sub_distrib, ← Finset.sum_div, hz1, ← hbub, div_self hbub0.ne', sub_self]
  · unfold errIG raoult
    have : ∀ i, (c i / dew - 1) * (1 / (1 * (c i / dew - 1) + 1) * zs i) = zs i - dew * (zs i / c i) := by
      intro i
      have := hc i
      have hd := hdew0
      rw [one_mul, sub_add_cancel]
      field_simp
    rw [Finset.sum_congr rfl fun i _ => this i, Finset.sum_sub_distrib, ← Finset.mul_sum, hz1, hdew, one_div_mul_cancel hD.ne',
      sub_self]
  · unfold pGuess; nlinarith
  · unfold pGuess; nlinarith

theorem term_mono (V K L : ℝ) (hK : 0 < 1 + V * (K - 1)) (hL : 0 < 1 + V * (L - 1)) (h : K < L) :
    (K - 1) / (1 + V * (K - 1)) < (L - 1) / (1 + V * (L - 1)) := by
  rw [div_lt_div_iff₀ hK hL]
  nlinarith

theorem errIG_anti {n : ℕ} (zs c : Comp n) (VF : ℝ) (hz : ∀ i, 0 ≤ zs i) (hz1 : ∑ i, zs i = 1) (hc : ∀ i, 0 < c i)
    (h0 : 0 ≤ VF) (h1 : VF ≤ 1) (P Q : ℝ) (hP : 0 < P) (hPQ : P < Q) : errIG VF zs (raoult c Q) < errIG VF zs (raoult c P) := by
  rw [errIG_rr, errIG_rr]
  unfold rr
  have hQ : 0 < Q := hP.trans hPQ
  have hlt : ∀ i, (raoult c Q i - 1) / (1 + VF * (raoult c Q i - 1)) < (raoult c P i - 1) / (1 + VF * (raoult c P i - 1)) := by
    intro i
    refine term_mono VF _ _ (raoult_den c VF Q hc hQ h0 h1 i) (raoult_den c VF P hc hP h0 h1 i) ?_
    unfold raoult
    exact div_lt_div_of_pos_left (hc i) hP hPQ
  have := sum_pos_of zs (fun i => (raoult c P i - 1) / (1 + VF * (raoult c P i - 1)) - (raoult c Q i - 1) / (1 + VF * (raoult c Q i - 1)))
    hz hz1 (fun i => sub_pos.2 (hlt i))
  rw [← sub_pos, ← Finset.sum_sub_distrib]
  refine lt_of_lt_of_eq this (Finset.sum_congr rfl fun i _ => by ring)

/-- **C93.** For an ideal liquid and every vapor fraction between zero and one there is exactly one pressure at which the error is zero,
and it is between dew and bubble pressure. -/
theorem C93_ig_unique {n : ℕ} (zs c : Comp n) (base VF : ℝ) (hz : ∀ i, 0 ≤ zs i) (hz1 : ∑ i, zs i = 1) (hc : ∀ i, 0 < c i)
    (hb : 0 < base) (h0 : 0 ≤ VF) (h1 : VF ≤ 1) :
    ∃ P, pDew zs (raoult c base) base ≤ P ∧ P ≤ pBub zs (raoult c base) base ∧ errIG VF zs (raoult c P) = 0
      ∧ ∀ Q, 0 < Q → errIG VF zs (raoult c Q) = 0 → Q = P := by
  obtain ⟨_, hbub, hdew, hd0, hle, _, _⟩ := C93_ig_bounds zs c base VF hz hz1 hc hb h0 h1
  set bub := pBub zs (raoult c base) base
  set dew := pDew zs (raoult c base) base
  have hb0 : 0 < bub := hd0.trans_le hle
  have hsb : errIG VF zs (raoult c bub) ≤ 0 := by
    rw [errIG_rr] at hbub ⊢
    have hden := raoult_den c VF bub hc hb0 h0 h1
    have e : rr zs (raoult c bub) VF = rr zs (raoult c bub) 0
        - VF * ∑ i, zs i * (raoult c bub i - 1) ^ 2 / (1 + VF * (raoult c bub i - 1)) := by
      unfold rr
      rw [Finset.mul_sum, ← Finset.sum_sub_distrib]
      refine Finset.sum_congr rfl fun i _ => ?_
      rw [← Verif.FlashStability.frac_zero _ _ _ (hden i).ne']
      simp
    rw [e, hbub]
    have : 0 ≤ ∑ i, zs i * (raoult c bub i - 1) ^ 2 / (1 + VF * (raoult c bub i - 1)) :=
      Finset.sum_nonneg fun i _ => div_nonneg (mul_nonneg (hz i) (sq_nonneg _)) (hden i).le
    nlinarith
  have hsd : 0 ≤ errIG VF zs (raoult c dew) := by
    rw [errIG_rr] at hdew ⊢
    have hden := raoult_den c VF dew hc hd0 h0 h1
    have hK : ∀ i, 0 < raoult c dew i := fun i => div_pos (hc i) hd0
    have e : rr zs (raoult c dew) VF = rr zs (raoult c dew) 1
        - (VF - 1) * ∑ i, zs i * (raoult c dew i - 1) ^ 2 / (raoult c dew i * (1 + VF * (raoult c dew i - 1))) := by
      unfold rr
      rw [Finset.mul_sum, ← Finset.sum_sub_distrib]
      refine Finset.sum_congr rfl fun i _ => ?_
      rw [← Verif.FlashStability.frac_one _ _ _ (hden i).ne' (hK i).ne']
      have := (hK i).ne'
      congr 1
      rw [one_mul, add_sub_cancel, mul_div_assoc, sub_div, div_self this]
    rw [e, hdew]
    have : 0 ≤ ∑ i, zs i * (raoult c dew i - 1) ^ 2 / (raoult c dew i * (1 + VF * (raoult c dew i - 1))) :=
      Finset.sum_nonneg fun i _ => div_nonneg (mul_nonneg (hz i) (sq_nonneg _)) (mul_pos (hK i) (hden i)).le
    nlinarith
  have hcont : ContinuousOn (fun P => errIG VF zs (raoult c P)) (Set.Icc dew bub) := by
    simp only [errIG_rr]
    unfold rr raoult
    refine continuousOn_finset_sum _ fun i _ => ?_
    have hk : ContinuousOn (fun P : ℝ => c i / P - 1) (Set.Icc dew bub) :=
      (continuousOn_const.div continuousOn_id fun P hP => (hd0.trans_le hP.1).ne').sub continuousOn_const
    exact (continuousOn_const.mul hk).div (continuousOn_const.add (continuousOn_const.mul hk))
      fun P hP => (raoult_den c VF P hc (hd0.trans_le hP.1) h0 h1 i).ne'
  obtain ⟨P, hP, hP0⟩ := intermediate_value_Icc' hle hcont ⟨hsb, hsd⟩
  refine ⟨P, hP.1, hP.2, hP0, fun Q hQ hQ0 => ?_⟩
  have hPp := hd0.trans_le hP.1
  rcases lt_trichotomy P Q with h | h | h
  · have := errIG_anti zs c VF hz hz1 hc h0 h1 P Q hPp h
    simp only at hP0
    linarith
  · exact h.symm
  · have := errIG_anti zs c VF hz hz1 hc h0 h1 Q P hQ h
    simp only at hP0
    linarith

/-- A mixture with saturation pressures one and three. -/
example : pBub ![1 / 2, 1 / 2] (raoult ![1, 3] 5) 5 = 2 ∧ pDew ![1 / 2, 1 / 2] (raoult ![1, 3] 5) 5 = 3 / 2 := by
  constructor
  · simp [pBub, raoult, Fin.sum_univ_two]; norm_num
  · simp [pDew, raoult, Fin.sum_univ_two]; norm_num

end Verif.SatPoints
