import Mathlib.Analysis.SpecialFunctions.Log.NegMulLog
import Mathlib.Analysis.SpecialFunctions.Pow.Real
import Mathlib.Algebra.BigOperators.Fin
import Mathlib.Algebra.Order.BigOperators.Ring.Finset
import Mathlib.Tactic

/-!
# Flashes of mixtures at given energy or vapor fraction (`thermo/flash`)

* `TPV_solve_HSGUA_guesses_VL` (`flash_utils.py` 4176-4492): the simple models which start an energy flash;
* `FlashVL.flash_TPV_HSGUA` (`flash_vl.py` 824-899): what becomes of the chosen solution and of a specification function;
* `FlashVL.flash_TVF_2P`, `flash_PVF_2P` (`flash_vl.py` 364-524): order of algorithms and choice of the result;
* `sequential_substitution_2P_HSGUAbeta`, `SS_VF_simultaneous`, `sequential_substitution_2P_sat` (`flash_utils.py` 3578-3804): steps,
  corrections and the test of convergence.

Simplifications: the correlations of `chemicals` and the numerical solvers are parameters; exceptions are values.
-/

namespace Verif.MixDrivers

open Finset

/-! ## Guesses for energy flashes -/

/-- State variables. -/
inductive Var | T | P | V
deriving DecidableEq, Repr

/-- Temperature, pressure and, if known, volume at which the models are evaluated. -/
structure Point where
  /-- Temperature. -/
  T : ℝ
  /-- Pressure. -/
  P : ℝ
  /-- Volume, if it is one of the two variables. -/
  V : Option ℝ

/-- The head of `err` (`flash_utils.py` 4253-4277) with the definition of `flash_model` (4326-4357), where `P` must have been bound if
it is not iterated on: which temperature and pressure are used for a guess. -/
noncomputable def point (R : ℝ) (iter fixed : Var) (fixedVal guess : ℝ) : Except String Point :=
  if fixed = iter then .error "ValueError"
  else if iter ≠ .P ∧ fixed ≠ .P then .error "UnboundLocalError"
  else
    let P := if iter = .P then guess else fixedVal
    let V := if iter = .V then some guess else if fixed = .V then some fixedVal else none
    match V with
    | none => .ok ⟨if iter = .T then guess else fixedVal, P, none⟩
    | some v => .ok ⟨P * v / R, P, some v⟩

/-- **C141**: if pressure is one of the two variables, the models are evaluated at a point with both given values, where a volume is
that of the ideal gas. -/
theorem C141_point {R : ℝ} (hR : 0 < R) {iter fixed : Var} (h : iter ≠ fixed) (hP : iter = .P ∨ fixed = .P) (fixedVal guess : ℝ) :
    ∃ p, point R iter fixed fixedVal guess = .ok p ∧
      (∀ v x, (v = iter ∧ x = guess) ∨ (v = fixed ∧ x = fixedVal) →
        match v with | .T => p.T = x | .P => p.P = x | .V => p.V = some x ∧ p.P * x = R * p.T) := by
  have hR' := hR.ne'
  cases iter <;> cases fixed <;> simp at h hP <;> refine ⟨_, by simp [point]; rfl, ?_⟩ <;>
    rintro v x (⟨rfl, rfl⟩ | ⟨rfl, rfl⟩) <;> simp <;> field_simp

example : point 8 .V .P 100000 (1 / 40) = .ok ⟨100000 * (1 / 40) / 8, 100000, some (1 / 40)⟩ := by simp [point]

/-- **C141**: temperature and volume as variables have no starting point (the pressure is never bound). -/
theorem C141_point_fails (R fixedVal guess : ℝ) : point R .T .V fixedVal guess = .error "UnboundLocalError" ∧
    point R .V .T fixedVal guess = .error "UnboundLocalError" := by
  constructor <;> simp [point]

/-- A property of gas and liquid at a composition. -/
abbrev Prop' (n : ℕ) := (Fin n → ℝ) → ℝ

/-- `H_model`, `S_model`, `V_model` (4220-4245). -/
noncomputable def mixModel {n : ℕ} (liq gas : Prop' n) (zs xs ys : Fin n → ℝ) (VF : ℝ) : ℝ :=
  if 1 ≤ VF then gas zs else if VF ≤ 0 then liq zs else liq xs * (1 - VF) + VF * gas ys

/-- **C141**: between the two limits it is the average over the phases, otherwise the value of the whole as one phase. -/
theorem C141_mix {n : ℕ} (liq gas : Prop' n) (zs xs ys : Fin n → ℝ) (VF : ℝ) :
    (1 ≤ VF → mixModel liq gas zs xs ys VF = gas zs) ∧ (VF ≤ 0 → mixModel liq gas zs xs ys VF = liq zs) ∧
      (0 < VF → VF < 1 → mixModel liq gas zs xs ys VF = (1 - VF) * liq xs + VF * gas ys) := by
  refine ⟨fun h => by simp [mixModel, h], fun h => ?_, fun h1 h2 => ?_⟩
  · rw [mixModel, if_neg (by linarith), if_pos h]
  · rw [mixModel, if_neg (by linarith), if_neg (by linarith)]
    ring

example : mixModel (n := 1) (fun x => x 0) (fun x => 3 * x 0) ![1] ![1] ![1] (1 / 2) = 2 := by
  rw [(C141_mix _ _ _ _ _ _).2.2 (by norm_num) (by norm_num)]
  norm_num

/-- Specifications. -/
inductive Spec | H | S | G | U | A | V
deriving DecidableEq, Repr

/-- The residual (4283-4302); `Vmix` is the volume of the models, used only if the volume is not a variable. -/
noncomputable def residual (spec : Spec) (p : Point) (H S Vmix target : ℝ) : ℝ :=
  let V := p.V.getD Vmix
  match spec with
  | .H => H - target
  | .S => S - target
  | .G => (H - p.T * S) - target
  | .U => (H - p.P * V) - target
  | .A => (H - p.P * V - p.T * S) - target
  | .V => V - target

/-- A state with the five energies related as they should. -/
structure Energies (T P : ℝ) where
  /-- Enthalpy, entropy, Gibbs energy, internal energy, Helmholtz energy and volume. -/
  (H S G U A V : ℝ)
  (hU : H = U + P * V)
  (hA : A = U - T * S)
  (hG : G = A + P * V)

/-- The value of a specification. -/
def Energies.get {T P : ℝ} (e : Energies T P) : Spec → ℝ
  | .H => e.H | .S => e.S | .G => e.G | .U => e.U | .A => e.A | .V => e.V

/-- **C141**: the residual of every specification vanishes exactly if the state of the models has the target value. -/
theorem C141_residual (spec : Spec) (p : Point) (e : Energies p.T p.P) (Vmix target : ℝ) (hV : p.V.getD Vmix = e.V) :
    residual spec p e.H e.S Vmix target = 0 ↔ e.get spec = target := by
  have h1 := e.hU
  have h2 := e.hA
  have h3 := e.hG
  cases spec <;> simp only [residual, Energies.get, hV, sub_eq_zero] <;> constructor <;> intro h <;> linarith

example : ∃ e : Energies 300 100000, e.H = 5000 ∧ e.get .G = 5000 - 300 * 10 ∧ residual .G ⟨300, 100000, none⟩ 5000 10 (1 / 50) 2000 = 0 := by
  refine ⟨⟨5000, 10, 2000, 3000, 0, 1 / 50, by norm_num, by norm_num, by norm_num⟩, rfl, by norm_num [Energies.get], by norm_num [residual]⟩

/-- The models of `IDEAL_WILSON` (4452-4475): integrals of gas heat capacities `h`, `s` and enthalpies of vaporization. -/
def wilsonHg {n : ℕ} (h : Fin n → ℝ) (zs : Fin n → ℝ) : ℝ := ∑ i, zs i * h i
@[inherit_doc wilsonHg] def wilsonHl {n : ℕ} (h hvap : Fin n → ℝ) (zs : Fin n → ℝ) : ℝ := ∑ i, zs i * (h i - hvap i)
@[inherit_doc wilsonHg] noncomputable def wilsonSl {n : ℕ} (T : ℝ) (s hvap : Fin n → ℝ) (zs : Fin n → ℝ) : ℝ := ∑ i, zs i * (s i - 1 / T * hvap i)

/-- **C141**: with a balanced split the Gibbs energy of these models does not depend on the split: the entropy of vaporization is that
of phases in equilibrium at every temperature. -/
theorem C141_gibbs {n : ℕ} {T : ℝ} (hT : T ≠ 0) (h s hvap zs xs ys : Fin n → ℝ) {VF : ℝ} (hb : ∀ i, zs i = (1 - VF) * xs i + VF * ys i) :
    mixModel (wilsonHl h hvap) (wilsonHg h) zs xs ys VF - T * mixModel (wilsonSl T s hvap) (wilsonHg s) zs xs ys VF =
      ∑ i, zs i * (h i - T * s i) := by
  have hl : ∀ w : Fin n → ℝ, wilsonHl h hvap w - T * wilsonSl T s hvap w = ∑ i, w i * (h i - T * s i) := by
    intro w
    unfold wilsonHl wilsonSl
    rw [Finset.mul_sum, ← Finset.sum_sub_distrib]
    refine Finset.sum_congr rfl fun i _ => ?_
    field_simp
    ring
  have hg : ∀ w : Fin n → ℝ, wilsonHg h w - T * wilsonHg s w = ∑ i, w i * (h i - T * s i) := by
    intro w
    unfold wilsonHg
    rw [Finset.mul_sum, ← Finset.sum_sub_distrib]
    exact Finset.sum_congr rfl fun i _ => by ring
  unfold mixModel
  split_ifs with h1 h2
  · exact hg zs
  · exact hl zs
  · have : wilsonHl h hvap xs * (1 - VF) + VF * wilsonHg h ys - T * (wilsonSl T s hvap xs * (1 - VF) + VF * wilsonHg s ys) =
        (1 - VF) * (wilsonHl h hvap xs - T * wilsonSl T s hvap xs) + VF * (wilsonHg h ys - T * wilsonHg s ys) := by ring
    rw [this, hl, hg, Finset.mul_sum, Finset.mul_sum, ← Finset.sum_add_distrib]
    exact Finset.sum_congr rfl fun i _ => by rw [hb i]; ring

example : (∀ i : Fin 2, (![1 / 2, 1 / 2] : Fin 2 → ℝ) i = (1 - 1 / 2) * ![1, 0] i + 1 / 2 * ![0, 1] i) := by
  intro i
  fin_cases i <;> norm_num

/-- The entropy of mixing in the models (4250, 4284): of the overall composition, whatever the phases. -/
noncomputable def mixingEntropy {n : ℕ} (R : ℝ) (zs : Fin n → ℝ) : ℝ := -(R * ∑ i, zs i * Real.log (zs i))

/-- **C141**: with two phases the models have too much entropy of mixing: at least that of the two phases. -/
theorem C141_mixing {n : ℕ} {R : ℝ} (hR : 0 ≤ R) {zs xs ys : Fin n → ℝ} {VF : ℝ} (h0 : 0 ≤ VF) (h1 : VF ≤ 1) (hx : ∀ i, 0 ≤ xs i)
    (hy : ∀ i, 0 ≤ ys i) (hb : ∀ i, zs i = (1 - VF) * xs i + VF * ys i) :
    (1 - VF) * mixingEntropy R xs + VF * mixingEntropy R ys ≤ mixingEntropy R zs := by
  have key : ∀ i, zs i * Real.log (zs i) ≤ (1 - VF) * (xs i * Real.log (xs i)) + VF * (ys i * Real.log (ys i)) := by
    intro i
    have := Real.convexOn_mul_log.2 (Set.mem_Ici.mpr (hx i)) (Set.mem_Ici.mpr (hy i)) (sub_nonneg.mpr h1) h0 (by ring)
    simp only [smul_eq_mul] at this
    rwa [← hb i] at this
  have hs : ∑ i, zs i * Real.log (zs i) ≤ (1 - VF) * ∑ i, xs i * Real.log (xs i) + VF * ∑ i, ys i * Real.log (ys i) := by
    rw [Finset.mul_sum, Finset.mul_sum, ← Finset.sum_add_distrib]
    exact Finset.sum_le_sum fun i _ => key i
  unfold mixingEntropy
  nlinarith [mul_le_mul_of_nonneg_left hs hR]

/-- **C141**: and strictly more for immiscible phases: none instead of `R log 2`. -/
theorem C141_mixing_fails : ∃ zs xs ys : Fin 2 → ℝ, (∀ i, zs i = (1 - 1 / 2) * xs i + 1 / 2 * ys i) ∧
    (1 - 1 / 2) * mixingEntropy 8 xs + 1 / 2 * mixingEntropy 8 ys = 0 ∧ mixingEntropy 8 zs = 8 * Real.log 2 := by
  refine ⟨![1 / 2, 1 / 2], ![1, 0], ![0, 1], ?_, ?_, ?_⟩
  · intro i
    fin_cases i <;> norm_num
  · simp [mixingEntropy, Fin.sum_univ_two]
  · simp [mixingEntropy, Fin.sum_univ_two]
    ring

/-- `flash_model` (4326-4377): coefficients of Wilson and which phases they allow. -/
noncomputable def wilsonK {n : ℕ} (Tcs Pcs omegas : Fin n → ℝ) (T P : ℝ) (i : Fin n) : ℝ :=
  Pcs i * (1 / P) * Real.exp (5.37 * (1 + omegas i) * (1 - Tcs i * (1 / T)))

/-- The scan over components (4362-4377): `none` means that the Rachford-Rice equation is solved. The result is the fraction. -/
noncomputable def allowed {n : ℕ} (zs K : Fin n → ℝ) : Option ℝ :=
  let high := (List.finRange n).any fun i => decide (zs i ≠ 0 ∧ 1 < K i)
  let low := (List.finRange n).any fun i => decide (zs i ≠ 0 ∧ ¬ 1 < K i)
  if high && low then none else if high then some 1 else some 0

/-- The Rachford-Rice function. -/
noncomputable def rr {n : ℕ} (zs K : Fin n → ℝ) (V : ℝ) : ℝ := ∑ i, zs i * (K i - 1) / (1 + V * (K i - 1))

/-- **C141**: a single phase is assumed exactly if all present components agree, and then the Rachford-Rice equation has the
corresponding sign for every fraction between zero and one: no two phases are missed. -/
theorem C141_allowed {n : ℕ} {zs K : Fin n → ℝ} (hz : ∀ i, 0 ≤ zs i) (hne : ∃ i, 0 < zs i) (hK : ∀ i, 0 < K i) {V : ℝ} (h0 : 0 ≤ V) (h1 : V ≤ 1) :
    (allowed zs K = some 1 → 0 < rr zs K V) ∧ (allowed zs K = some 0 → rr zs K V ≤ 0) ∧
      (allowed zs K = none ↔ (∃ i, 0 < zs i ∧ 1 < K i) ∧ ∃ i, 0 < zs i ∧ K i ≤ 1) := by
  have hd : ∀ i, 0 < 1 + V * (K i - 1) := by
    intro i
    have := hK i
    nlinarith [mul_nonneg h0 this.le]
  have ehigh : ((List.finRange n).any fun i => decide (zs i ≠ 0 ∧ 1 < K i)) = true ↔ ∃ i, 0 < zs i ∧ 1 < K i := by
    simp only [List.any_eq_true, List.mem_finRange, true_and, decide_eq_true_eq]
    exact exists_congr fun i => and_congr_left fun _ => ⟨fun h => lt_of_le_of_ne (hz i) (Ne.symm h), fun h => h.ne'⟩
  have elow : ((List.finRange n).any fun i => decide (zs i ≠ 0 ∧ ¬ 1 < K i)) = true ↔ ∃ i, 0 < zs i ∧ K i ≤ 1 := by
    simp only [List.any_eq_true, List.mem_finRange, true_and, decide_eq_true_eq, not_lt]
    exact exists_congr fun i => and_congr_left fun _ => ⟨fun h => lt_of_le_of_ne (hz i) (Ne.symm h), fun h => h.ne'⟩
  unfold allowed
  dsimp only
  by_cases hh : ((List.finRange n).any fun i => decide (zs i ≠ 0 ∧ 1 < K i)) = true <;>
    by_cases hl : ((List.finRange n).any fun i => decide (zs i ≠ 0 ∧ ¬ 1 < K i)) = true
  · rw [hh, hl]
    simp only [Bool.and_self, if_true, reduceCtorEq, false_implies, true_and, true_iff]
    exact ⟨ehigh.mp hh, elow.mp hl⟩
  · have hl' : ∀ i, 0 < zs i → 1 < K i := fun i hi => by
      by_contra hc
      exact hl (elow.mpr ⟨i, hi, not_lt.mp hc⟩)
    rw [Bool.not_eq_true] at hl
    rw [hh, hl]
    simp only [Bool.and_false, Bool.false_eq_true, if_false, if_true, true_implies, Option.some.injEq, one_ne_zero, false_implies,
      reduceCtorEq, true_and, false_iff, not_and, not_exists]
    refine ⟨?_, fun _ i hi => not_le.mpr (hl' i hi)⟩
    obtain ⟨j, hj⟩ := hne
    refine Finset.sum_pos' (fun i _ => ?_) ⟨j, Finset.mem_univ _, ?_⟩
    · rcases (hz i).lt_or_eq with h | h
      · exact div_nonneg (mul_nonneg h.le (sub_nonneg.mpr (hl' i h).le)) (hd i).le
      · rw [← h]
        simp
    · exact div_pos (mul_pos hj (sub_pos.mpr (hl' j hj))) (hd j)
  all_goals
    have hh' : ∀ i, 0 < zs i → K i ≤ 1 := fun i hi => by
      by_contra hc
      exact hh (ehigh.mpr ⟨i, hi, not_le.mp hc⟩)
    rw [Bool.not_eq_true] at hh
    rw [hh]
    simp only [Bool.false_and, Bool.false_eq_true, if_false, true_implies, Option.some.injEq, zero_ne_one, false_implies,
      reduceCtorEq, true_and, false_iff, not_and, not_exists]
    refine ⟨?_, fun ⟨i, hi, hk⟩ => absurd (hh' i hi) (not_le.mpr hk)⟩
    refine Finset.sum_nonpos fun i _ => ?_
    rcases (hz i).lt_or_eq with h | h
    · exact div_nonpos_of_nonpos_of_nonneg (mul_nonpos_of_nonneg_of_nonpos h.le (sub_nonpos.mpr (hh' i h))) (hd i).le
    · rw [← h]
      simp

/-- Two components with opposite tendency. -/
example : allowed ![(1 : ℝ) / 2, 1 / 2] ![2, 1 / 2] = none ∧ allowed ![(1 : ℝ) / 2, 1 / 2] ![2, 3] = some 1 := by
  constructor <;> norm_num [allowed, List.finRange_succ]

/-- **C141**: the coefficients: one at the critical point, and the vapor pressure estimate over the pressure. -/
theorem C141_wilson {n : ℕ} (Tcs Pcs omegas : Fin n → ℝ) (T P : ℝ) (i : Fin n) (hT : Tcs i ≠ 0) (hP : Pcs i ≠ 0) :
    wilsonK Tcs Pcs omegas (Tcs i) (Pcs i) i = 1 ∧
      wilsonK Tcs Pcs omegas T P i = wilsonK Tcs Pcs omegas T 1 i / P := by
  constructor
  · unfold wilsonK
    have : Tcs i * (1 / Tcs i) = 1 := by field_simp
    rw [this]
    simp
    field_simp
  · unfold wilsonK
    generalize Real.exp _ = E
    simp
    ring

/-! ## Choice of solutions -/

/-- The argument `solution`. -/
inductive Solution | absent | high | low | fn | other
deriving DecidableEq, Repr

/-- `FlashVL.flash_TPV_HSGUA` (824-899): the two algorithms are functions of the specification; `bisect` gets the specification
function, `newton` does not, and neither gets the objective built from `solution`. -/
def flashEnergy {R F : Type} (bisect : ℝ → Option F → Option R) (newton : ℝ → Option R) (sol : Solution) (spec : ℝ) (specFun : Option F) :
    Except String R :=
  if sol = .other then .error "ValueError"
  else match bisect spec specFun with
    | some r => .ok r
    | none => match newton spec with
      | some r => .ok r
      | none => .error "unconverged"

/-- **C141**: the high and the low solution of a mixture are the same: the choice is checked and then not used. -/
theorem C141_solution_fails {R F : Type} (bisect : ℝ → Option F → Option R) (newton : ℝ → Option R) (spec : ℝ) (f : Option F) :
    flashEnergy bisect newton .high spec f = flashEnergy bisect newton .low spec f ∧
      flashEnergy bisect newton .fn spec f = flashEnergy bisect newton .absent spec f ∧
      flashEnergy bisect newton .other spec f = .error "ValueError" := by
  refine ⟨rfl, rfl, rfl⟩

/-- **C141**: when the first algorithm fails, the second one solves for the number instead of the function. -/
theorem C141_spec_fun_fails {R F : Type} (bisect : ℝ → Option F → Option R) (newton : ℝ → Option R) (spec : ℝ) (f g : F)
    (hf : bisect spec (some f) = none) (hg : bisect spec (some g) = none) :
    flashEnergy bisect newton .absent spec (some f) = flashEnergy bisect newton .absent spec (some g) := by
  simp [flashEnergy, hf, hg]

/-- **C141**: a result is that of one of the algorithms, and the second is used only if the first fails. -/
theorem C141_energy {R F : Type} {bisect : ℝ → Option F → Option R} {newton : ℝ → Option R} {sol : Solution} {spec : ℝ} {f : Option F} {r : R}
    (h : flashEnergy bisect newton sol spec f = .ok r) : bisect spec f = some r ∨ (bisect spec f = none ∧ newton spec = some r) := by
  unfold flashEnergy at h
  split_ifs at h
  cases hb : bisect spec f with
  | some r' => rw [hb] at h; cases h; exact .inl rfl
  | none =>
    rw [hb] at h
    cases hn : newton spec with
    | some r' => rw [hn] at h; cases h; exact .inr ⟨rfl, rfl⟩
    | none => rw [hn] at h; cases h

example : flashEnergy (F := Unit) (fun _ _ => none) (fun x => some (x + 1)) .high 2 none = .ok (3 : ℝ) := by
  rw [flashEnergy, if_neg (by decide)]
  norm_num

/-! ## Given vapor fraction -/

/-- A solution: iterated value, liquid and gas composition. -/
structure Sln (n : ℕ) where
  /-- `guess`. -/
  val : ℝ
  /-- Composition of the liquid. -/
  xs : Fin n → ℝ
  /-- Composition of the gas. -/
  ys : Fin n → ℝ

/-- A solution of the incipient phase algorithms: value, new guess, incipient phase and the other one. -/
structure Inc (n : ℕ) where
  /-- `guess`. -/
  val : ℝ
  /-- `comp_guess`. -/
  comp : Fin n → ℝ
  /-- `iter_phase`. -/
  inc : Fin n → ℝ
  /-- `const_phase`. -/
  feed : Fin n → ℝ

/-- An algorithm: `dew_bubble_bounded_naive` with its result, or one that takes the guess of the composition. -/
inductive Algo (n : ℕ)
  | naive (r : Option (Sln n))
  | guessed (f : (Fin n → ℝ) → Option (Inc n))

/-- Liquid and gas of an incipient solution (431-434, 519-522). -/
def arrange {n : ℕ} (dew : Bool) (s : Inc n) : Sln n := if dew then ⟨s.val, s.inc, s.feed⟩ else ⟨s.val, s.feed, s.inc⟩

/-- The loop of `flash_TVF_2P` (411-436); `comp` is unbound (`none`) for fractions between zero and one. -/
def loopT {n : ℕ} (unique : ℕ) (dew : Bool) (comp : Option (Fin n → ℝ)) : List (Algo n) → Except String (Sln n)
  | [] => .error "UnboundLocalError"
  | .naive r :: rest => if 1 < unique then loopT unique dew comp rest else match r with
    | some s => .ok s
    | none => loopT unique dew comp rest
  | .guessed f :: rest => match comp.bind f with
    | some s => .ok (arrange dew s)
    | none => loopT unique dew comp rest

/-- The loop of `flash_PVF_2P` (486-524) with the result kept so far; `stable` is the stability test. -/
def loopP {n : ℕ} (unique : ℕ) (dew : Bool) (stable : Inc n → Bool) : Option (Fin n → ℝ) → Option (Inc n) → List (Algo n) → Except String (Sln n)
  | _, last, [] => match last with
    | some s => .ok (arrange dew s)
    | none => .error "UnboundLocalError"
  | comp, last, .naive r :: rest => if 1 < unique then loopP unique dew stable comp last rest else match r with
    | some s => .ok s
    | none => loopP unique dew stable comp last rest
  | comp, last, .guessed f :: rest => match comp.bind f with
    | some s => if stable s then .ok (arrange dew s) else loopP unique dew stable (some s.comp) (some s) rest
    | none => loopP unique dew stable comp last rest

/-- Which guess is bound (397-409, 472-484). -/
noncomputable def compOf {n : ℕ} (VF : ℝ) (xs ys : Fin n → ℝ) : Option (Fin n → ℝ) := if VF = 1 then some xs else if VF = 0 then some ys else none

/-- `flash_TVF_2P` and `flash_PVF_2P`; no guess: the names are unbound. -/
noncomputable def flashTVF {n : ℕ} (VF : ℝ) (unique : ℕ) (start : Option ((Fin n → ℝ) × (Fin n → ℝ))) (algos : List (Algo n)) : Except String (Sln n) :=
  match start with
  | none => .error "UnboundLocalError"
  | some (xs, ys) => loopT unique (decide (VF = 1)) (compOf VF xs ys) algos
@[inherit_doc flashTVF] noncomputable def flashPVF {n : ℕ} (VF : ℝ) (unique : ℕ) (stable : Inc n → Bool) (start : Option ((Fin n → ℝ) × (Fin n → ℝ)))
    (algos : List (Algo n)) : Except String (Sln n) :=
  match start with
  | none => .error "UnboundLocalError"
  | some (xs, ys) => loopP unique (decide (VF = 1)) stable (compOf VF xs ys) none algos

/-- What the algorithms guarantee: the naive one a balance with the fraction, the others that the phase which is not incipient is the
feed. -/
def AlgoOk {n : ℕ} (zs : Fin n → ℝ) (VF : ℝ) : Algo n → Prop
  | .naive r => ∀ s, r = some s → ∀ i, zs i = (1 - VF) * s.xs i + VF * s.ys i
  | .guessed f => ∀ c s, f c = some s → s.feed = zs

theorem arrange_ok {n : ℕ} {zs : Fin n → ℝ} {VF : ℝ} (hVF : VF = 0 ∨ VF = 1) {s : Inc n} (h : s.feed = zs) (i : Fin n) :
    zs i = (1 - VF) * (arrange (decide (VF = 1)) s).xs i + VF * (arrange (decide (VF = 1)) s).ys i := by
  rcases hVF with rfl | rfl
  · simp [arrange, h]
  · simp [arrange, h]

theorem compOf_some {n : ℕ} {VF : ℝ} {xs ys c : Fin n → ℝ} (h : compOf VF xs ys = some c) : VF = 0 ∨ VF = 1 := by
  unfold compOf at h
  split_ifs at h with h1 h2
  · exact .inr h1
  · exact .inl h2

theorem loopT_ok {n : ℕ} {zs : Fin n → ℝ} {VF : ℝ} {unique : ℕ} {comp : Option (Fin n → ℝ)} (hc : ∀ c, comp = some c → VF = 0 ∨ VF = 1) :
    ∀ (algos : List (Algo n)), (∀ a ∈ algos, AlgoOk zs VF a) → ∀ s, loopT unique (decide (VF = 1)) comp algos = .ok s →
      ∀ i, zs i = (1 - VF) * s.xs i + VF * s.ys i := by
  intro algos
  induction algos with
  | nil => intro _ s h; cases h
  | cons a rest ih =>
    intro ha s h
    have hr := ih (fun b hb => ha b (List.mem_cons_of_mem _ hb)) s
    cases a with
    | naive r =>
      unfold loopT at h
      split_ifs at h with hu
      · exact hr h
      · cases r with
        | some s' => cases h; exact ha _ (List.mem_cons_self) _ rfl
        | none => exact hr h
    | guessed f =>
      unfold loopT at h
      cases hf : comp.bind f with
      | none => rw [hf] at h; exact hr h
      | some s' =>
        rw [hf] at h
        cases h
        obtain ⟨c, hc', hs⟩ := Option.bind_eq_some_iff.mp hf
        exact arrange_ok (hc c hc') (ha _ (List.mem_cons_self) c s' hs)

theorem loopP_ok {n : ℕ} {zs : Fin n → ℝ} {VF : ℝ} {unique : ℕ} {stable : Inc n → Bool} :
    ∀ (algos : List (Algo n)), (∀ a ∈ algos, AlgoOk zs VF a) → ∀ (comp : Option (Fin n → ℝ)) (last : Option (Inc n)),
      (∀ c, comp = some c → VF = 0 ∨ VF = 1) → (∀ l, last = some l → (VF = 0 ∨ VF = 1) ∧ l.feed = zs) →
      ∀ s, loopP unique (decide (VF = 1)) stable comp last algos = .ok s → ∀ i, zs i = (1 - VF) * s.xs i + VF * s.ys i := by
  intro algos
  induction algos with
  | nil =>
    intro _ comp last _ hl s h
    cases last with
    | none => cases h
    | some l => cases h; exact arrange_ok (hl l rfl).1 (hl l rfl).2
  | cons a rest ih =>
    intro ha comp last hc hl s h
    have hr := ih (fun b hb => ha b (List.mem_cons_of_mem _ hb))
    cases a with
    | naive r =>
      unfold loopP at h
      split_ifs at h with hu
      · exact hr comp last hc hl s h
      · cases r with
        | some s' => cases h; exact ha _ (List.mem_cons_self) _ rfl
        | none => exact hr comp last hc hl s h
    | guessed f =>
      unfold loopP at h
      cases hf : comp.bind f with
      | none => rw [hf] at h; exact hr comp last hc hl s h
      | some s' =>
        rw [hf] at h
        obtain ⟨c, hc', hs⟩ := Option.bind_eq_some_iff.mp hf
        have hfeed := ha _ (List.mem_cons_self) c s' hs
        dsimp only at h
        split_ifs at h with hst
        · cases h
          exact arrange_ok (hc c hc') hfeed
        · exact hr _ _ (fun _ _ => hc c hc') (fun l hl' => by cases hl'; exact ⟨hc c hc', hfeed⟩) s h

/-- **C141**: a flash at given vapor fraction returns phases which, with this fraction, add up to the feed (at a dew or bubble point: one
of the phases is the feed). -/
theorem C141_VF {n : ℕ} {zs : Fin n → ℝ} {VF : ℝ} {unique : ℕ} {stable : Inc n → Bool} {start : Option ((Fin n → ℝ) × (Fin n → ℝ))}
    {algos : List (Algo n)} (ha : ∀ a ∈ algos, AlgoOk zs VF a) {s : Sln n}
    (h : flashTVF VF unique start algos = .ok s ∨ flashPVF VF unique stable start algos = .ok s) (i : Fin n) :
    zs i = (1 - VF) * s.xs i + VF * s.ys i := by
  cases start with
  | none => rcases h with h | h <;> cases h
  | some p =>
    rcases h with h | h
    · exact loopT_ok (fun _ hc => compOf_some hc) algos ha s h i
    · exact loopP_ok algos ha _ none (fun _ hc => compOf_some hc) (fun _ hl => by cases hl) s h i

/-- A dew point: the liquid is the incipient phase. -/
example : flashTVF (n := 2) 1 1 (some (![1, 0], ![0, 1])) [.guessed fun c => some ⟨350, c, c, ![1 / 2, 1 / 2]⟩] = .ok ⟨350, ![1, 0], ![1 / 2, 1 / 2]⟩ := by
  simp [flashTVF, loopT, compOf, arrange]

/-- The algorithms that need a guess of the composition do not matter for a fraction between zero and one. -/
theorem loopT_none {n : ℕ} (unique : ℕ) (dew : Bool) (algos : List (Algo n)) (h : ∀ a ∈ algos, ∀ s, a ≠ .naive (some s)) :
    loopT unique dew none algos = .error "UnboundLocalError" := by
  induction algos with
  | nil => rfl
  | cons a rest ih =>
    have ih := ih fun b hb => h b (List.mem_cons_of_mem _ hb)
    cases a with
    | naive r =>
      cases r with
      | some s => exact absurd rfl (h _ (List.mem_cons_self) s)
      | none => simp [loopT, ih]
    | guessed f => simp [loopT, ih]

/-- **C141**: for a fraction between zero and one only the bounded algorithm can succeed, although the simultaneous one is listed after
it: the guess of the composition it is called with is not bound. With several liquid models nothing is tried at all. -/
theorem C141_fraction_fails {n : ℕ} {VF : ℝ} (h0 : VF ≠ 0) (h1 : VF ≠ 1) (start : (Fin n → ℝ) × (Fin n → ℝ)) (f : (Fin n → ℝ) → Option (Inc n)) :
    (∀ unique, flashTVF VF unique (some start) [.naive none, .guessed f] = .error "UnboundLocalError") ∧
      (∀ s unique, 1 < unique → flashTVF VF unique (some start) [.naive (some s), .guessed f] = .error "UnboundLocalError") ∧
      (∀ s stable unique, 1 < unique → flashPVF VF unique stable (some start) [.naive (some s), .guessed f] = .error "UnboundLocalError") ∧
      (∀ s unique, unique ≤ 1 → flashTVF VF unique (some start) [.naive (some s), .guessed f] = .ok s) := by
  obtain ⟨xs, ys⟩ := start
  refine ⟨fun u => ?_, fun s u hu => ?_, fun s st u hu => ?_, fun s u hu => ?_⟩
  · simp [flashTVF, loopT, compOf, h0, h1]
  · simp [flashTVF, loopT, compOf, h0, h1, hu]
  · simp [flashPVF, loopP, compOf, h0, h1, hu]
  · simp [flashTVF, loopT, Nat.not_lt.mpr hu]

example : (1 / 2 : ℝ) ≠ 0 ∧ (1 / 2 : ℝ) ≠ 1 := by norm_num

/-- **C141**: at given pressure the first stable result is used; if no algorithm gives a stable one, the last result is returned all
the same. At given temperature stability is not tested. -/
theorem C141_stability {n : ℕ} (unique : ℕ) (stable : Inc n → Bool) (xs ys : Fin n → ℝ) (f g : (Fin n → ℝ) → Option (Inc n)) {a b : Inc n}
    (hf : f xs = some a) (hg : g a.comp = some b) :
    flashPVF 1 unique stable (some (xs, ys)) [.guessed f, .guessed g] = .ok (if stable a then ⟨a.val, a.inc, a.feed⟩ else ⟨b.val, b.inc, b.feed⟩) ∧
      flashTVF 1 unique (some (xs, ys)) [.guessed f, .guessed g] = .ok ⟨a.val, a.inc, a.feed⟩ := by
  constructor
  · by_cases hs : stable a = true <;> simp [flashPVF, loopP, compOf, hf, hg, hs, arrange]
  · simp [flashTVF, loopT, compOf, hf, arrange]

example : ∃ (f g : (Fin 1 → ℝ) → Option (Inc 1)) (a b : Inc 1), f ![1] = some a ∧ g a.comp = some b ∧ a.val ≠ b.val :=
  ⟨fun _ => some ⟨350, ![1], ![1], ![1]⟩, fun _ => some ⟨360, ![1], ![1], ![1]⟩, _, _, rfl, rfl, by norm_num⟩

/-- **C141**: a result may be one that the stability test rejects. -/
theorem C141_unstable_fails : ∃ (f : (Fin 1 → ℝ) → Option (Inc 1)) (s : Inc 1), f ![1] = some s ∧
    flashPVF 1 1 (fun _ => false) (some (![1], ![1])) [.guessed f] = .ok ⟨s.val, s.inc, s.feed⟩ := by
  refine ⟨fun _ => some ⟨350, ![1], ![1], ![1]⟩, ⟨350, ![1], ![1], ![1]⟩, rfl, ?_⟩
  simp [flashPVF, loopP, compOf, arrange]

/-! ## Substitution with an outer variable -/

/-- The step of the outer variable (`flash_utils.py` 3707-3727): current and previous value, their errors, the Newton step. -/
noncomputable def outerStep (p0 p1 e eOld : ℝ) (newton : Option ℝ) (fprime : Bool) (damping : ℝ) : ℝ :=
  let sec := eOld * (p1 - p0) / (eOld - e) * damping
  let new := match newton with
    | some d => if fprime then (if |d| < |sec| then p0 - d else p1 - sec) else p1 - sec
    | none => p1 - sec
  if new < 1e-7 then 0.5 * (1e-7 + p0) else new

/-- **C141**: undamped and without derivative the new value is the zero of the line through the last two points, unless this is not
positive; it is positive in any case. -/
theorem C141_secant {p0 p1 e eOld : ℝ} (he : e ≠ eOld) (hp : 0 < p0) {fprime : Bool} :
    (let x := outerStep p0 p1 e eOld none fprime 1
     0 < x ∧ (1e-7 ≤ p1 - eOld * (p1 - p0) / (eOld - e) → (x - p1) * (e - eOld) + (p0 - p1) * eOld = 0)) ∧
      ∀ d damping, 0 < outerStep p0 p1 e eOld (some d) fprime damping := by
  have h' : eOld - e ≠ 0 := sub_ne_zero.mpr he.symm
  have hpos : ∀ y : ℝ, 0 < (if y < 1e-7 then 0.5 * (1e-7 + p0) else y) := by
    intro y
    split_ifs with h
    · positivity
    · have : (0 : ℝ) < 1e-7 := by norm_num
      linarith [not_lt.mp h]
  refine ⟨⟨hpos _, fun h => ?_⟩, fun d damping => hpos _⟩
  unfold outerStep
  simp only [mul_one]
  rw [if_neg (not_lt.mpr h)]
  field_simp
  ring

example : outerStep 2 1 1 (-1) none true 1 = 3 / 2 := by
  norm_num [outerStep]

/-- **C141**: a Newton step is taken exactly if it is asked for and shorter than the secant step; else the step is that without derivative. -/
theorem C141_newton_step (p0 p1 e eOld d damping : ℝ) :
    outerStep p0 p1 e eOld (some d) false damping = outerStep p0 p1 e eOld none true damping ∧
      (|eOld * (p1 - p0) / (eOld - e) * damping| ≤ |d| → outerStep p0 p1 e eOld (some d) true damping = outerStep p0 p1 e eOld none true damping) ∧
      (|d| < |eOld * (p1 - p0) / (eOld - e) * damping| → 1e-7 ≤ p0 - d → outerStep p0 p1 e eOld (some d) true damping = p0 - d) := by
  refine ⟨rfl, fun h => ?_, fun h h' => ?_⟩
  · simp only [outerStep, if_true]
    rw [if_neg (not_lt.mpr h)]
  · simp only [outerStep, if_true]
    rw [if_pos h, if_neg (not_lt.mpr h')]

example : outerStep 2 1 1 (-1) (some (1/4)) true 1 = 7 / 4 := by
  rw [(C141_newton_step _ _ _ _ _ _).2.2] <;> norm_num [abs_lt]

/-- **C141**: a damped step starts from the older point, so it does not stay at a solution: from an error of zero it goes back by
`(1 - damping)` of the last step (the default of `SS_VF_simultaneous` is 0.8). -/
theorem C141_damping_fails {p0 p1 eOld damping : ℝ} (he : eOld ≠ 0) (h : 1e-7 ≤ p0 + (1 - damping) * (p1 - p0)) :
    outerStep p0 p1 0 eOld none false damping = p0 + (1 - damping) * (p1 - p0) := by
  have : p1 - eOld * (p1 - p0) / (eOld - 0) * damping = p0 + (1 - damping) * (p1 - p0) := by
    rw [sub_zero]
    field_simp
    ring
  unfold outerStep
  simp only [this]
  rw [if_neg (not_lt.mpr h)]

/-- 290 K after the solution 300 K. -/
example : outerStep 300 290 0 (-1) none false 0.8 = 298 := by
  rw [C141_damping_fails (by norm_num) (by norm_num)]
  norm_num

/-- The repair of negative fractions (3776-3785, 3620-3629). -/
noncomputable def repair {n : ℕ} (xs : Fin n → ℝ) : Fin n → ℝ :=
  if (List.finRange n).any fun i => decide (xs i < 0) then fun i => |xs i| / ∑ j, |xs j| else xs

/-- **C141**: compositions without negative fractions are kept; otherwise the result has no negative fraction and sums to one. -/
theorem C141_repair {n : ℕ} (xs : Fin n → ℝ) :
    ((∀ i, 0 ≤ xs i) → repair xs = xs) ∧ (∀ i, 0 ≤ repair xs i) ∧ ((∃ i, xs i < 0) → ∑ i, repair xs i = 1) := by
  have e : ((List.finRange n).any fun i => decide (xs i < 0)) = true ↔ ∃ i, xs i < 0 := by simp
  by_cases h : ∃ i, xs i < 0
  · have hr : repair xs = fun i => |xs i| / ∑ j, |xs j| := by rw [repair, if_pos (e.mpr h)]
    refine ⟨fun hall => ?_, fun i => ?_, fun _ => ?_⟩
    · obtain ⟨i, hi⟩ := h
      linarith [hall i]
    · rw [hr]
      exact div_nonneg (abs_nonneg _) (Finset.sum_nonneg fun _ _ => abs_nonneg _)
    · obtain ⟨j, hj⟩ := h
      have : 0 < ∑ j, |xs j| := Finset.sum_pos' (fun _ _ => abs_nonneg _) ⟨j, Finset.mem_univ _, abs_pos.mpr hj.ne⟩
      rw [hr]
      simp only [div_eq_mul_inv, ← Finset.sum_mul]
      exact mul_inv_cancel₀ this.ne'
  · have hr : repair xs = xs := by rw [repair, if_neg (fun hc => h (e.mp hc))]
    push Not at h
    exact ⟨fun _ => hr, fun i => by rw [hr]; exact h i, fun ⟨i, hi⟩ => absurd hi (not_lt.mpr (h i))⟩

example : repair ![(-1 : ℝ), 1] = ![1 / 2, 1 / 2] := by
  funext i
  rw [repair, if_pos (by simp [List.finRange_succ])]
  fin_cases i <;> norm_num [Fin.sum_univ_two]

/-- Absolute tolerance of the specification (3698-3703). -/
noncomputable def specTol (tol target : ℝ) (beta : Bool) : ℝ := if tol * |target| = 0 then (if beta then 1e-9 else 1e-7) else tol * |target|

/-- What one pass returns, if it ends the iteration (3750-3803): `Kof` are the ratios of fugacity coefficients of the two phases at
their compositions, `specL`, `specG` their properties (the fraction itself for `beta`). `V`, `xn`, `yn` come from `flash_inner_loop`. -/
structure Pass (n : ℕ) where
  /-- Compositions of the phases at the start of the pass. -/
  (xs ys : Fin n → ℝ)
  /-- Ratios of their fugacity coefficients. -/
  K : Fin n → ℝ
  /-- New fraction. -/
  V : ℝ
  /-- New compositions. -/
  (xn yn : Fin n → ℝ)
  /-- Properties of the two phases at the start of the pass. -/
  (specL specG : ℝ)

/-- End of a pass: `none` continues, an error is the trivial solution. The phases returned are those at the start of the pass. -/
noncomputable def endPass {n : ℕ} (p : Pass n) (iteration : ℕ) (beta : Bool) (target tolEq tolSpec trivialTol : ℝ) :
    Except String (Option (ℝ × (Fin n → ℝ) × (Fin n → ℝ))) :=
  let calc' := if beta then p.V else p.specL * (1 - p.V) + p.specG * p.V
  let err := ∑ i, (p.K i * p.xs i / p.ys i - 1) * (p.K i * p.xs i / p.ys i - 1)
  let diff := ∑ i, |p.xs i - p.ys i|
  if diff < trivialTol ∧ iteration ≠ 0 then .error "ValueError"
  else if err < tolEq ∧ |calc' - target| < specTol tolSpec target beta then .ok (some (p.V, repair p.xn, repair p.yn))
  else .ok none

/-- **C141**: when the iteration ends, the fugacities of the returned phases agree within the tolerance component by component, the
property (or fraction) is met within its tolerance, and, if no fraction had to be repaired, the returned compositions balance. -/
theorem C141_converged {n : ℕ} {p : Pass n} {k : ℕ} {beta : Bool} {target tolEq tolSpec trivialTol : ℝ} {V : ℝ} {x y zs : Fin n → ℝ}
    (hb : ∀ i, zs i = (1 - p.V) * p.xn i + p.V * p.yn i) (h : endPass p k beta target tolEq tolSpec trivialTol = .ok (some (V, x, y))) :
    V = p.V ∧ (∀ i, |p.K i * p.xs i / p.ys i - 1| ^ 2 < tolEq) ∧
      |(if beta then V else (1 - V) * p.specL + V * p.specG) - target| < specTol tolSpec target beta ∧
      (k ≠ 0 → trivialTol ≤ ∑ i, |p.xs i - p.ys i|) ∧
      ((∀ i, 0 ≤ p.xn i) → (∀ i, 0 ≤ p.yn i) → ∀ i, zs i = (1 - V) * x i + V * y i) := by
  unfold endPass at h
  dsimp only at h
  by_cases h1 : ∑ i, |p.xs i - p.ys i| < trivialTol ∧ k ≠ 0
  · rw [if_pos h1] at h
    cases h
  rw [if_neg h1] at h
  by_cases h2 : ∑ i, (p.K i * p.xs i / p.ys i - 1) * (p.K i * p.xs i / p.ys i - 1) < tolEq ∧
      |(if beta then p.V else p.specL * (1 - p.V) + p.specG * p.V) - target| < specTol tolSpec target beta
  · rw [if_pos h2] at h
    simp only [Except.ok.injEq, Option.some.injEq, Prod.mk.injEq] at h
    obtain ⟨rfl, rfl, rfl⟩ := h
    refine ⟨rfl, fun i => ?_, ?_, fun hk => ?_, fun hx hy i => ?_⟩
    · rw [sq_abs, sq]
      exact lt_of_le_of_lt (Finset.single_le_sum (f := fun i => (p.K i * p.xs i / p.ys i - 1) * (p.K i * p.xs i / p.ys i - 1))
        (fun j _ => mul_self_nonneg _) (Finset.mem_univ i)) h2.1
    · have := h2.2
      cases beta
      · simp only [Bool.false_eq_true, if_false] at this ⊢
        rwa [show (1 - p.V) * p.specL + p.V * p.specG = p.specL * (1 - p.V) + p.specG * p.V by ring]
      · simpa using this
    · by_contra hc
      exact h1 ⟨not_le.mp hc, hk⟩
    · rw [(C141_repair p.xn).1 hx, (C141_repair p.yn).1 hy]
      exact hb i
  · rw [if_neg h2] at h
    cases h

/-- A converged pass. -/
noncomputable def goodPass : Pass 2 :=
  { xs := ![1 / 4, 3 / 4], ys := ![3 / 4, 1 / 4], K := ![3, 1 / 3], V := 1 / 2, xn := ![1 / 4, 3 / 4], yn := ![3 / 4, 1 / 4], specL := 0, specG := 100 }

example : endPass goodPass 3 false 50 1e-13 1e-9 1e-5 = .ok (some (1 / 2, ![1 / 4, 3 / 4], ![3 / 4, 1 / 4])) := by
  have h1 : repair ![(1 : ℝ) / 4, 3 / 4] = ![1 / 4, 3 / 4] := (C141_repair _).1 (by intro i; fin_cases i <;> norm_num)
  have h2 : repair ![(3 : ℝ) / 4, 1 / 4] = ![3 / 4, 1 / 4] := (C141_repair _).1 (by intro i; fin_cases i <;> norm_num)
  have e1 : ¬ (∑ i, |goodPass.xs i - goodPass.ys i| < 1e-5 ∧ 3 ≠ 0) := by
    norm_num [goodPass, Fin.sum_univ_two, abs_of_neg, abs_of_pos]
  have e2 : ∑ i, (goodPass.K i * goodPass.xs i / goodPass.ys i - 1) * (goodPass.K i * goodPass.xs i / goodPass.ys i - 1) < 1e-13 := by
    norm_num [goodPass, Fin.sum_univ_two]
  have e3 : |(if false = true then goodPass.V else goodPass.specL * (1 - goodPass.V) + goodPass.specG * goodPass.V) - 50| < specTol 1e-9 50 false := by
    norm_num [goodPass, specTol]
  unfold endPass
  dsimp only
  rw [if_neg e1, if_pos ⟨e2, e3⟩]
  simp only [goodPass, h1, h2]

/-- **C141**: in the first pass equal compositions are accepted: two phases of one composition and equal fugacity coefficients end the
iteration at once, whatever the variable, if the property is met. -/
theorem C141_trivial_fails {n : ℕ} (xs : Fin n → ℝ) (hx : ∀ i, xs i ≠ 0) (V target : ℝ) {tolEq tolSpec trivialTol : ℝ} (h1 : 0 < tolEq)
    (h2 : 0 < tolSpec) :
    endPass ⟨xs, xs, fun _ => 1, V, xs, xs, target, target⟩ 0 false target tolEq tolSpec trivialTol = .ok (some (V, repair xs, repair xs)) := by
  unfold endPass
  dsimp only
  have e : ∑ i, (1 * xs i / xs i - 1) * (1 * xs i / xs i - 1) = 0 := by
    refine Finset.sum_eq_zero fun i _ => ?_
    rw [one_mul, div_self (hx i)]
    ring
  have ht : 0 < specTol tolSpec target false := by
    unfold specTol
    split_ifs with h h'
    · norm_num
    · norm_num
    · exact lt_of_le_of_ne (mul_nonneg h2.le (abs_nonneg _)) (Ne.symm h)
  have : target * (1 - V) + target * V - target = 0 := by ring
  rw [if_neg (by simp), e, if_pos ⟨h1, by simpa [this] using ht⟩]

/-- The first guess of the fraction (3688-3691, 3739-3740). -/
noncomputable def firstFraction (beta : Bool) (guess : Option ℝ) (iterVar0 : ℝ) : ℝ := if beta then iterVar0 else guess.getD 0.5

/-- **C141**: for a given fraction the first guess of the fraction is the temperature or pressure. -/
theorem C141_first_fails : ¬ firstFraction true none 300 ≤ 1 ∧ ∀ x, firstFraction true (some 0.3) x = x := by
  constructor
  · norm_num [firstFraction]
  · intro x
    simp [firstFraction]

/-- `SS_VF_simultaneous` (3656-3676): which side is taken as the incipient phase; the compositions are those of the phase objects. -/
noncomputable def simultaneous {n : ℕ} (VF : ℝ) (xs ys : Fin n → ℝ) : (Fin n → ℝ) × (Fin n → ℝ) :=
  if VF = 1 ∨ 0.5 < VF then (xs, ys) else (ys, xs)

/-- **C141** (partial): at a dew point the liquid is the incipient phase and at a bubble point the gas, as the callers expect. Missing: that the other phase
is exactly the feed; it is the gas (or liquid) of the last pass. -/
theorem C141_simultaneous_partial {n : ℕ} (xs ys : Fin n → ℝ) (val : ℝ) :
    (let r := simultaneous 1 xs ys; arrange true ⟨val, r.1, r.1, r.2⟩ = ⟨val, xs, ys⟩) ∧
      (let r := simultaneous 0 xs ys; arrange false ⟨val, r.1, r.1, r.2⟩ = ⟨val, xs, ys⟩) := by
  constructor <;> norm_num [simultaneous, arrange]

/-- **C141**: the incipient phase is the one with less than half of the moles. -/
theorem C141_incipient_side {n : ℕ} (VF : ℝ) (xs ys : Fin n → ℝ) : (0.5 < VF → (simultaneous VF xs ys).1 = xs) ∧ (VF < 0.5 → (simultaneous VF xs ys).1 = ys) := by
  unfold simultaneous
  constructor
  · intro h
    rw [if_pos (Or.inr h)]
  · intro h
    rw [if_neg (by rintro (h' | h') <;> norm_num at * <;> linarith)]

example : (simultaneous (0.9 : ℝ) (fun _ : Fin 1 => (1 : ℝ)) (fun _ => 2)).1 = fun _ => 1 := (C141_incipient_side _ _ _).1 (by norm_num)

/-- **C141**: the tolerance of the specification is relative, except for a value of zero, where it is `1e-7`, or `1e-9` for fractions; without a guess of the fraction half of the feed is taken as gas. -/
theorem C141_tolerance (tol target x : ℝ) (beta : Bool) (ht : 0 < tol) :
    (target ≠ 0 → specTol tol target beta = tol * |target|) ∧ specTol tol 0 false = 1e-7 ∧ specTol tol 0 true = 1e-9 ∧ 0 < specTol tol target beta
      ∧ firstFraction false none x = 1 / 2 ∧ ∀ g, firstFraction false (some g) x = g := by
  have h0 : target ≠ 0 → specTol tol target beta = tol * |target| := fun h => by
    unfold specTol
    rw [if_neg (mul_ne_zero ht.ne' (abs_ne_zero.mpr h))]
  refine ⟨h0, by simp [specTol], by simp [specTol], ?_, by norm_num [firstFraction], fun g => by simp [firstFraction]⟩
  by_cases h : target = 0
  · subst h
    cases beta <;> norm_num [specTol]
  · rw [h0 h]
    positivity

example : specTol 1e-9 (-50) false = 5e-8 := by
  rw [(C141_tolerance 1e-9 (-50) 0 false (by norm_num)).1 (by norm_num)]
  norm_num

end Verif.MixDrivers
