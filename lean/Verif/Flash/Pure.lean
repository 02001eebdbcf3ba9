import Mathlib.Data.Real.Basic
import Mathlib.Analysis.SpecialFunctions.Log.Basic
import Mathlib.Analysis.Calculus.Deriv.Comp
import Mathlib.Analysis.Calculus.Deriv.Prod
import Mathlib.Analysis.Calculus.Deriv.Pow
import Mathlib.Analysis.Calculus.Deriv.Add
import Mathlib.Analysis.Calculus.Deriv.Mul
import Mathlib.Analysis.Convex.Deriv
import Mathlib.Topology.Order.IntermediateValue
import Mathlib.Tactic.Ring
import Mathlib.Tactic.Linarith
import Mathlib.Tactic.FieldSimp
import Mathlib.Tactic.NormNum
import Mathlib.Tactic.Positivity

/-!
# Flashes of one component (`thermo/flash/flash_pure_vls.py` 340-468, 598-962, 1013-1046, 1106-1256)

C94: which phase `FlashPureVLS.flash_TPV` returns, how `flash_TPV_HSGUA` chooses among solutions with one and two phases, what the
criteria mean thermodynamically, and how `flash_VF_HSGUA` finds its bracket.

The branches for CoolProp and IAPWS95 are not modelled. One phase solutions are data; exceptions are values.
-/

namespace Verif.FlashPure

/-! ## Two of temperature, pressure and volume (433-468) -/

/-- A phase at the specified conditions: the quantity compared, the compressibility factor, and its least temperature. -/
structure Cand where
  (val Z Tmin : ℝ)

/-- What is returned; `nothing` is a result without phases. -/
inductive Pick
  | gas
  | liquid (k : ℕ)
  | solid (k : ℕ)
  | nothing
deriving DecidableEq

/-- Line 433. -/
def gasUsed (T : Option ℝ) (gas : Option Cand) : Prop :=
  ∃ g, gas = some g ∧ ∀ t, T = some t → g.Tmin < t

/-- Line 442. -/
def liquidUsed (T : Option ℝ) (l : Cand) : Prop := ∀ t, T = some t → ¬ t < l.Tmin

open Classical in
/-- The loop over liquids (441-452) with the number of the next liquid, and `gas is not None`. -/
noncomputable def liquidLoop (T : Option ℝ) (hasGas : Prop) : List Cand → ℕ → ℝ × Pick → ℝ × Pick
  | [], _, s => s
  | l :: ls, k, s =>
    liquidLoop T hasGas ls (k + 1)
      (if liquidUsed T l then
        if l.val < s.1 then (l.val, .liquid k)
        else if l.val = s.1 ∧ hasGas then (if l.Z < 1 / 4 then (l.val, .liquid k) else s)
        else s
      else s)

/-- The loop over solids (456-461). -/
noncomputable def solidLoop : List Cand → ℕ → ℝ × Pick → ℝ × Pick
  | [], _, s => s
  | c :: cs, k, s => solidLoop cs (k + 1) (if c.val < s.1 then (c.val, .solid k) else s)

open Classical in
/-- Lines 433-438. -/
noncomputable def begin (T : Option ℝ) (gas : Option Cand) : ℝ × Pick :=
  match gas with
  | some g => if gasUsed T (some g) then (g.val, .gas) else ((10 : ℝ) ^ 100, .nothing)
  | none => ((10 : ℝ) ^ 100, .nothing)

/-- Lines 433-468. -/
noncomputable def flashTPV (T : Option ℝ) (gas : Option Cand) (liquids solids : List Cand) : ℝ × Pick :=
  solidLoop solids 0 (liquidLoop T (gasUsed T gas) liquids 0 (begin T gas))

theorem liquid_spec (T : Option ℝ) (hg : Prop) (ls : List Cand) (k : ℕ) (s : ℝ × Pick) :
    (liquidLoop T hg ls k s).1 ≤ s.1 ∧ (∀ l ∈ ls, liquidUsed T l → (liquidLoop T hg ls k s).1 ≤ l.val)
      ∧ (liquidLoop T hg ls k s = s ∨ ∃ j l, ls[j]? = some l ∧ liquidUsed T l ∧ liquidLoop T hg ls k s = (l.val, .liquid (k + j))) := by
  induction ls generalizing k s with
  | nil => simp [liquidLoop]
  | cons a as ih =>
    unfold liquidLoop
    split_ifs with hu hlt heq hz
    · obtain ⟨h1, h2, h3⟩ := ih (k + 1) (a.val, .liquid k)
      refine ⟨h1.trans hlt.le, ?_, ?_⟩
      · intro l hl hlu
        rcases List.mem_cons.1 hl with h | h
        · subst h; exact h1
        · exact h2 l h hlu
      · right
        rcases h3 with h3 | ⟨j, l, hj, hlu, h3⟩
        · exact ⟨0, a, rfl, hu, h3⟩
        · exact ⟨j + 1, l, hj, hlu, by rw [h3]; congr 2; omega⟩
    · obtain ⟨h1, h2, h3⟩ := ih (k + 1) (a.val, .liquid k)
      refine ⟨h1.trans heq.1.le, ?_, ?_⟩
      · intro l hl hlu
        rcases List.mem_cons.1 hl with h | h
        · subst h; exact h1
        · exact h2 l h hlu
      · right
        rcases h3 with h3 | ⟨j, l, hj, hlu, h3⟩
        · exact ⟨0, a, rfl, hu, h3⟩
        · exact ⟨j + 1, l, hj, hlu, by rw [h3]; congr 2; omega⟩
    · obtain ⟨h1, h2, h3⟩ := ih (k + 1) s
      refine ⟨h1, ?_, ?_⟩
      · intro l hl hlu
        rcases List.mem_cons.1 hl with h | h
        · subst h; exact h1.trans (not_lt.1 hlt)
        · exact h2 l h hlu
      · rcases h3 with h3 | ⟨j, l, hj, hlu, h3⟩
        · exact Or.inl h3
        · exact Or.inr ⟨j + 1, l, hj, hlu, by rw [h3]; congr 2; omega⟩
    · obtain ⟨h1, h2, h3⟩ := ih (k + 1) s
      refine ⟨h1, ?_, ?_⟩
      · intro l hl hlu
        rcases List.mem_cons.1 hl with h | h
        · subst h; exact h1.trans (not_lt.1 hlt)
        · exact h2 l h hlu
      · rcases h3 with h3 | ⟨j, l, hj, hlu, h3⟩
        · exact Or.inl h3
        · exact Or.inr ⟨j + 1, l, hj, hlu, by rw [h3]; congr 2; omega⟩
    · obtain ⟨h1, h2, h3⟩ := ih (k + 1) s
      refine ⟨h1, ?_, ?_⟩
      · intro l hl hlu
        rcases List.mem_cons.1 hl with h | h
        · subst h; exact absurd hlu hu
        · exact h2 l h hlu
      · rcases h3 with h3 | ⟨j, l, hj, hlu, h3⟩
        · exact Or.inl h3
        · exact Or.inr ⟨j + 1, l, hj, hlu, by rw [h3]; congr 2; omega⟩

theorem solid_spec (cs : List Cand) (k : ℕ) (s : ℝ × Pick) :
    (solidLoop cs k s).1 ≤ s.1 ∧ (∀ c ∈ cs, (solidLoop cs k s).1 ≤ c.val)
      ∧ (solidLoop cs k s = s ∨ ∃ j c, cs[j]? = some c ∧ c.val < s.1 ∧ solidLoop cs k s = (c.val, .solid (k + j))) := by
  induction cs generalizing k s with
  | nil => simp [solidLoop]
  | cons a as ih =>
    unfold solidLoop
    split_ifs with hlt
    · obtain ⟨h1, h2, h3⟩ := ih (k + 1) (a.val, .solid k)
      refine ⟨h1.trans hlt.le, ?_, Or.inr ?_⟩
      · intro c hc
        rcases List.mem_cons.1 hc with h | h
        · subst h; exact h1
        · exact h2 c h
      · rcases h3 with h3 | ⟨j, c, hj, hc, h3⟩
        · exact ⟨0, a, rfl, hlt, h3⟩
        · exact ⟨j + 1, c, hj, hc.trans hlt, by rw [h3]; congr 2; omega⟩
    · obtain ⟨h1, h2, h3⟩ := ih (k + 1) s
      refine ⟨h1, ?_, ?_⟩
      · intro c hc
        rcases List.mem_cons.1 hc with h | h
        · subst h; exact h1.trans (not_lt.1 hlt)
        · exact h2 c h
      · rcases h3 with h3 | ⟨j, c, hj, hc, h3⟩
        · exact Or.inl h3
        · exact Or.inr ⟨j + 1, c, hj, hc, by rw [h3]; congr 2; omega⟩

/-- **C94.** The phase returned is one of those used, and none of those used has a lower value. -/
theorem C94_least (T : Option ℝ) (gas : Option Cand) (liquids solids : List Cand) :
    (∀ g, gas = some g → gasUsed T gas → (flashTPV T gas liquids solids).1 ≤ g.val)
      ∧ (∀ l ∈ liquids, liquidUsed T l → (flashTPV T gas liquids solids).1 ≤ l.val)
      ∧ (∀ c ∈ solids, (flashTPV T gas liquids solids).1 ≤ c.val)
      ∧ (match (flashTPV T gas liquids solids).2 with
        | .gas => ∃ g, gas = some g ∧ gasUsed T gas ∧ (flashTPV T gas liquids solids).1 = g.val
        | .liquid k => ∃ l, liquids[k]? = some l ∧ liquidUsed T l ∧ (flashTPV T gas liquids solids).1 = l.val
        | .solid k => ∃ c, solids[k]? = some c ∧ (flashTPV T gas liquids solids).1 = c.val
        | .nothing => ¬ gasUsed T gas ∧ (flashTPV T gas liquids solids).1 = (10 : ℝ) ^ 100) := by
  unfold flashTPV
  set b := begin T gas with hb
  set m := liquidLoop T (gasUsed T gas) liquids 0 b with hm
  obtain ⟨l1, l2, l3⟩ := liquid_spec T (gasUsed T gas) liquids 0 b
  obtain ⟨s1, s2, s3⟩ := solid_spec solids 0 m
  rw [← hm] at l1 l2 l3
  refine ⟨?_, fun l hl hu => s1.trans (l2 l hl hu), s2, ?_⟩
  · intro g hg hu
    have : b.1 = g.val := by
      rw [hb]; unfold begin
      subst hg
      simp only
      rw [if_pos hu]
    exact s1.trans (l1.trans this.le)
  · rcases s3 with s3 | ⟨j, c, hj, _, s3⟩
    · rw [s3]
      rcases l3 with l3 | ⟨j, l, hj, hu, l3⟩
      · rw [l3, hb]
        unfold begin
        cases gas with
        | none => simp [gasUsed]
        | some g =>
          by_cases hu : gasUsed T (some g)
          · simp only [if_pos hu]
            exact ⟨g, rfl, hu, rfl⟩
          · simp only [if_neg hu]
            exact ⟨hu, trivial⟩
      · rw [l3]
        simp only [Nat.zero_add]
        exact ⟨l, hj, hu, rfl⟩
    · rw [s3]
      simp only [Nat.zero_add]
      exact ⟨c, hj, rfl⟩

theorem liquid_gas (T : Option ℝ) (hg : Prop) (ls : List Cand) (k : ℕ) (s : ℝ × Pick)
    (h : (liquidLoop T hg ls k s).2 = .gas) :
    s.2 = .gas ∧ ∀ l ∈ ls, liquidUsed T l → s.1 < l.val ∨ (l.val = s.1 ∧ (hg → 1 / 4 ≤ l.Z)) := by
  induction ls generalizing k s with
  | nil => exact ⟨by simpa [liquidLoop] using h, by simp⟩
  | cons a as ih =>
    unfold liquidLoop at h
    split_ifs at h with hu hlt heq hz
    · exact absurd (ih _ _ h).1 (by simp)
    · exact absurd (ih _ _ h).1 (by simp)
    · obtain ⟨h1, h2⟩ := ih _ _ h
      refine ⟨h1, fun l hl hlu => ?_⟩
      rcases List.mem_cons.1 hl with e | e
      · subst e; exact Or.inr ⟨heq.1, fun _ => not_lt.1 hz⟩
      · exact h2 l e hlu
    · obtain ⟨h1, h2⟩ := ih _ _ h
      refine ⟨h1, fun l hl hlu => ?_⟩
      rcases List.mem_cons.1 hl with e | e
      · subst e
        rcases lt_or_eq_of_le (not_lt.1 hlt) with h' | h'
        · exact Or.inl h'
        · exact Or.inr ⟨h'.symm, fun hgg => absurd ⟨h'.symm, hgg⟩ heq⟩
      · exact h2 l e hlu
    · obtain ⟨h1, h2⟩ := ih _ _ h
      refine ⟨h1, fun l hl hlu => ?_⟩
      rcases List.mem_cons.1 hl with e | e
      · subst e; exact absurd hlu hu
      · exact h2 l e hlu

/-- **C94.** If the gas is returned, liquids with the same value have a compressibility factor of at least 0.25. -/
theorem C94_tie (T : Option ℝ) (g : Cand) (liquids solids : List Cand) (h : (flashTPV T (some g) liquids solids).2 = .gas) :
    ∀ l ∈ liquids, liquidUsed T l → g.val < l.val ∨ (l.val = g.val ∧ 1 / 4 ≤ l.Z) := by
  unfold flashTPV at h
  obtain ⟨_, _, s3⟩ := solid_spec solids 0 (liquidLoop T (gasUsed T (some g)) liquids 0 (begin T (some g)))
  rcases s3 with s3 | ⟨j, c, _, _, s3⟩
  · rw [s3] at h
    obtain ⟨h1, h2⟩ := liquid_gas _ _ _ _ _ h
    by_cases hu : gasUsed T (some g)
    · have hb : begin T (some g) = (g.val, .gas) := by unfold begin; simp only [if_pos hu]
      rw [hb] at h2
      intro l hl hlu
      rcases h2 l hl hlu with h' | ⟨h', h''⟩
      · exact Or.inl h'
      · exact Or.inr ⟨h', h'' hu⟩
    · have hb : begin T (some g) = ((10 : ℝ) ^ 100, .nothing) := by unfold begin; simp only [if_neg hu]
      rw [hb] at h1
      exact absurd h1 (by simp)
  · rw [s3] at h; exact absurd h (by simp)

/-- A gas and a liquid of which the liquid is more stable; and with equal values. -/
example : flashTPV (some 300) (some ⟨-1, 1, 0⟩) [⟨-2, 1 / 100, 0⟩] [] = (-2, .liquid 0)
    ∧ flashTPV (some 300) (some ⟨-1, 1, 0⟩) [⟨-1, 1, 0⟩] [] = (-1, .gas)
    ∧ flashTPV (some 300) (some ⟨-1, 1, 0⟩) [⟨-1, 1 / 100, 0⟩] [] = (-1, .liquid 0) := by
  have hg : ∀ Z, gasUsed (some 300) (some ⟨-1, Z, 0⟩) := fun Z => ⟨_, rfl, by intro t h; rw [Option.some.injEq] at h; rw [← h]; norm_num⟩
  have hl : ∀ v Z, liquidUsed (some 300) ⟨v, Z, 0⟩ := fun v Z t h => by rw [Option.some.injEq] at h; rw [← h]; norm_num
  refine ⟨?_, ?_, ?_⟩ <;>
  · simp only [flashTPV, begin, solidLoop, liquidLoop, if_pos (hg _), if_pos (hl _ _), hg]
    norm_num

/-- **C94 fails.** At the least temperature of both a gas and a liquid, which `flash` accepts, the gas is not considered: the liquid is
returned although the gas is more stable. -/
theorem C94_limit_fails : ∃ (t : ℝ) (g l : Cand), ¬ t < max g.Tmin l.Tmin ∧ g.val < l.val
    ∧ (flashTPV (some t) (some g) [l] []).2 = .liquid 0 := by
  refine ⟨243, ⟨-2, 1, 243⟩, ⟨-1, 1 / 100, 243⟩, by norm_num, by norm_num, ?_⟩
  have hg : ¬ gasUsed (some 243) (some ⟨-2, 1, 243⟩) := by
    rintro ⟨g, hg, h⟩
    rw [Option.some.injEq] at hg
    have := h 243 rfl
    rw [← hg] at this
    exact lt_irrefl _ this
  have hl : liquidUsed (some 243) ⟨-1, 1 / 100, 243⟩ := fun v h => by rw [Option.some.injEq] at h; rw [← h]; norm_num
  simp only [flashTPV, begin, solidLoop, liquidLoop, if_pos hl, if_neg hg]
  norm_num

/-! ### Specified volume -/

/-- Values of a phase at specified temperature and volume: Helmholtz energy and pressure. -/
structure AtTV where
  (A P : ℝ)

/-- The phase as compared by `flash_TPV`: Gibbs energy. -/
noncomputable def gibbsAt (V : ℝ) (p : AtTV) : Cand := ⟨p.A + p.P * V, p.P * V, 0⟩

/-- **C94 fails.** At specified temperature and volume the phase with lower Gibbs energy is returned, although its Helmholtz energy is
higher and it is the other that is stable. -/
theorem C94_TV_fails : ∃ (V : ℝ) (g l : AtTV), 0 < V ∧ 0 < g.P ∧ 0 < l.P ∧ g.A < l.A
    ∧ (flashTPV (some 300) (some (gibbsAt V g)) [gibbsAt V l] []).2 = .liquid 0 := by
  refine ⟨1, ⟨0, 1⟩, ⟨1 / 2, 1 / 10⟩, one_pos, one_pos, by norm_num, by norm_num, ?_⟩
  have hg : gasUsed (some 300) (some (gibbsAt 1 ⟨0, 1⟩)) :=
    ⟨_, rfl, by intro t h; rw [Option.some.injEq] at h; rw [← h]; norm_num [gibbsAt]⟩
  have hl : liquidUsed (some 300) (gibbsAt 1 ⟨1 / 2, 1 / 10⟩) := fun t h => by
    rw [Option.some.injEq] at h; rw [← h]; norm_num [gibbsAt]
  simp only [flashTPV, begin, solidLoop, liquidLoop, if_pos hl, if_pos hg]
  norm_num [gibbsAt]

/-- Number of phases in the result of the general branch and of the branches 354-386: always one. -/
noncomputable def phaseFractions (_ : ℝ × Pick) : List ℝ := [1]

/-- **C94 fails.** Inside the two phase region, at a volume between those of two phases of equal pressure and Gibbs energy, a single
phase is returned although the two phases together have a lower Helmholtz energy at the specified volume. -/
theorem C94_dome_fails : ∃ (A P : ℝ → ℝ) (V1 V V2 β : ℝ), (∀ v, HasDerivAt A (-P v) v) ∧ 0 < V1 ∧ V1 < V ∧ V < V2
    ∧ V = (1 - β) * V1 + β * V2 ∧ P V1 = P V2 ∧ A V1 + P V1 * V1 = A V2 + P V2 * V2
    ∧ (1 - β) * A V1 + β * A V2 < A V
    ∧ phaseFractions (flashTPV (some 300) (some (gibbsAt V ⟨A V, P V⟩)) [gibbsAt V ⟨A V, P V⟩] []) = [1] := by
  refine ⟨fun v => ((v - 2) ^ 2 - 1) ^ 2 - v, fun v => 1 - 4 * ((v - 2) ^ 2 - 1) * (v - 2), 1, 2, 3, 1 / 2, ?_, by norm_num, by norm_num,
    by norm_num, by norm_num, by norm_num, by norm_num, by norm_num, rfl⟩
  intro v
  have h := ((((((hasDerivAt_id' v).sub_const 2).fun_pow 2).sub_const 1).fun_pow 2).fun_sub (hasDerivAt_id' v))
  refine h.congr_deriv ?_
  push_cast
  ring

/-! ### The shortcut for activity coefficient liquids (374-380) -/

/-- Whether the liquid is returned. -/
def shortcut (P Psat : ℝ) : Prop := P > Psat

/-- **C94.** Over an ideal gas and with the saturation pressure as fugacity of the liquid the shortcut returns the phase with lower
fugacity, which is that of lower Gibbs energy. -/
theorem C94_shortcut (G0 RT P Psat : ℝ) (hRT : 0 < RT) (hP : 0 < P) (hs : 0 < Psat) :
    shortcut P Psat ↔ G0 + RT * Real.log Psat < G0 + RT * Real.log P := by
  unfold shortcut
  constructor
  · intro h
    have := Real.log_lt_log hs h
    nlinarith
  · intro h
    by_contra hc
    have := Real.log_le_log hP (not_lt.1 hc)
    nlinarith

example : shortcut 2 1 ∧ ¬ shortcut 1 2 := by unfold shortcut; norm_num

/-- **C94 fails.** With a saturation fugacity coefficient the fugacity of the liquid is `phi * Psat`, but the shortcut still compares with
`Psat`: the gas is returned although the liquid is more stable. -/
theorem C94_shortcut_fails : ∃ G0 RT P Psat phi : ℝ, 0 < RT ∧ 0 < phi ∧ phi < 1 ∧ ¬ shortcut P Psat
    ∧ G0 + RT * Real.log (phi * Psat) < G0 + RT * Real.log P := by
  refine ⟨0, 1, 3 / 4, 1, 1 / 2, one_pos, by norm_num, by norm_num, by unfold shortcut; norm_num, ?_⟩
  have : Real.log (1 / 2 * 1) < Real.log (3 / 4) := Real.log_lt_log (by norm_num) (by norm_num)
  linarith

/-! ### The shortcut for one cubic equation of state (362-373) -/

/-- Roots of the equation of state at the specified conditions, with departure Gibbs energies. -/
inductive Roots
  | both (Gl Gg : ℝ)
  | onlyLiquid (G : ℝ)
  | onlyGas (G : ℝ)

open Classical in
/-- Whether the result is a liquid, and the departure Gibbs energy of what is returned. -/
noncomputable def cubicPick : Roots → Bool × ℝ
  | .both Gl Gg => if Gl < Gg then (true, Gl) else (false, Gg)
  | .onlyLiquid G => (true, G)
  | .onlyGas G => (false, G)

/-- Departure Gibbs energies of the roots. -/
def Roots.energies : Roots → List ℝ
  | .both Gl Gg => [Gl, Gg]
  | .onlyLiquid G => [G]
  | .onlyGas G => [G]

/-- **C94.** With one equation of state the root returned has the least Gibbs energy, relative to whatever ideal gas; a single root is
returned as what it is, and of equal ones the gas. -/
theorem C94_cubic (Gig : ℝ) (r : Roots) :
    (cubicPick r).2 ∈ r.energies ∧ (∀ G ∈ r.energies, Gig + (cubicPick r).2 ≤ Gig + G)
      ∧ (∀ Gl Gg, r = .both Gl Gg → ((cubicPick r).1 = true ↔ Gl < Gg)) ∧ (∀ G, r = .onlyLiquid G → (cubicPick r).1 = true)
      ∧ ∀ G, r = .onlyGas G → (cubicPick r).1 = false := by
  cases r with
  | both Gl Gg =>
    simp only [cubicPick, Roots.energies]
    by_cases h : Gl < Gg
    · simp only [if_pos h]
      refine ⟨by simp, ?_, ?_, by simp, by simp⟩
      · intro G hG
        simp only [List.mem_cons, List.not_mem_nil, or_false] at hG
        rcases hG with e | e <;> rw [e] <;> linarith
      · intro a b e
        cases e
        simp [h]
    · simp only [if_neg h]
      refine ⟨by simp, ?_, ?_, by simp, by simp⟩
      · intro G hG
        simp only [List.mem_cons, List.not_mem_nil, or_false] at hG
        rcases hG with e | e <;> rw [e] <;> linarith
      · intro a b e
        cases e
        simp [h]
  | onlyLiquid G => simp [cubicPick, Roots.energies]
  | onlyGas G => simp [cubicPick, Roots.energies]

example : cubicPick (.both (-2) (-1)) = (true, -2) ∧ cubicPick (.both (-1) (-1)) = (false, -1) := by
  simp only [cubicPick]; norm_num

/-! ## What is compared for other specifications (704-720) -/

/-- The specified variable kept. -/
inductive Fixed
  | T
  | P
  | V
deriving DecidableEq

/-- The property specified. -/
inductive Spec
  | H
  | S
  | G
  | U
  | A
deriving DecidableEq

/-- Properties of a state. -/
structure Props where
  (H S G U : ℝ)

/-- `fun` without `solution`. -/
def criterion : Fixed → Spec → Props → ℝ
  | .P, .H, p => -p.S
  | .P, .S, p => p.H
  | .V, .U, p => -p.S
  | .V, .S, p => p.U
  | .P, .U, p => -p.S
  | _, _, p => p.G

/-- A phase at constant pressure (or volume): Gibbs (or Helmholtz) energy, concave in temperature, with entropy as negative slope. -/
structure Branch (G S : ℝ → ℝ) : Prop where
  conc : ConcaveOn ℝ (Set.Ioi 0) G
  slope : ∀ T, 0 < T → HasDerivAt G (-S T) T

theorem tangent {G S : ℝ → ℝ} (h : Branch G S) (T T0 : ℝ) (hT : 0 < T) (hT0 : 0 < T0) : G T0 ≤ G T - S T * (T0 - T) := by
  rcases lt_trichotomy T T0 with hlt | heq | hgt
  · have := h.conc.slope_le_of_hasDerivAt (x := T) (y := T0) hT hT0 hlt (h.slope T hT)
    rw [slope_def_field, div_le_iff₀ (by linarith)] at this
    linarith
  · subst heq; simp
  · have := h.conc.le_slope_of_hasDerivAt (x := T0) (y := T) hT0 hT hgt (h.slope T hT)
    rw [slope_def_field, le_div_iff₀ (by linarith)] at this
    linarith

/-- **C94.** At specified pressure and enthalpy (volume and internal energy) the stable state has the least value of the criterion: for
every phase, stable at `T0` or not, a state with the same enthalpy has at most the entropy of the stable one. -/
theorem C94_criterion_H {n : ℕ} (G S : Fin n → ℝ → ℝ) (hb : ∀ j, Branch (G j) (S j)) (k j : Fin n) (T0 T : ℝ) (h0 : 0 < T0)
    (hT : 0 < T) (hstable : ∀ i, G k T0 ≤ G i T0) (hH : G j T + T * S j T = G k T0 + T0 * S k T0) (u1 u2 : ℝ) :
    criterion .P .H ⟨G k T0 + T0 * S k T0, S k T0, G k T0, u1⟩ ≤ criterion .P .H ⟨G j T + T * S j T, S j T, G j T, u2⟩
      ∧ criterion .V .U ⟨u1, S k T0, G k T0, G k T0 + T0 * S k T0⟩ ≤ criterion .V .U ⟨u2, S j T, G j T, G j T + T * S j T⟩ := by
  have h1 := tangent (hb j) T T0 hT h0
  have h2 := hstable j
  have h3 : T0 * S j T ≤ T0 * S k T0 := by linarith
  have h4 := le_of_mul_le_mul_left h3 h0
  exact ⟨neg_le_neg h4, neg_le_neg h4⟩

/-- **C94.** At specified pressure and entropy (volume and entropy) the stable state has the least value of the criterion: enthalpy
(internal energy). -/
theorem C94_criterion_S {n : ℕ} (G S : Fin n → ℝ → ℝ) (hb : ∀ j, Branch (G j) (S j)) (k j : Fin n) (T0 T : ℝ) (h0 : 0 < T0)
    (hT : 0 < T) (hstable : ∀ i, G k T0 ≤ G i T0) (hS : S j T = S k T0) (u1 u2 : ℝ) :
    criterion .P .S ⟨G k T0 + T0 * S k T0, S k T0, G k T0, u1⟩ ≤ criterion .P .S ⟨G j T + T * S j T, S j T, G j T, u2⟩
      ∧ criterion .V .S ⟨u1, S k T0, G k T0, G k T0 + T0 * S k T0⟩ ≤ criterion .V .S ⟨u2, S j T, G j T, G j T + T * S j T⟩ := by
  have h1 := tangent (hb j) T T0 hT h0
  have h2 := hstable j
  have h3 : G k T0 + T0 * S k T0 ≤ G j T + T * S j T := by rw [← hS]; linarith
  exact ⟨h3, h3⟩

/-- A phase with entropy proportional to temperature. -/
noncomputable def quad (g : ℝ) (T : ℝ) : ℝ := g - T ^ 2 / 2

theorem quad_branch (g : ℝ) : Branch (quad g) fun T => T := by
  have hd : ∀ T, HasDerivAt (quad g) (-T) T := by
    intro T
    have := ((((hasDerivAt_id' T).fun_pow 2).div_const 2)).const_sub g
    exact this.congr_deriv (by push_cast; ring)
  refine ⟨?_, fun T _ => hd T⟩
  refine ⟨convex_Ioi 0, ?_⟩
  intro x _ y _ a b ha hb hab
  simp only [quad, smul_eq_mul]
  have hb' : b = 1 - a := by linarith
  subst hb'
  nlinarith [mul_nonneg (mul_nonneg ha hb) (sq_nonneg (x - y))]

/-- The premises are met: two phases of which the first is stable at all temperatures. -/
example : (∀ j : Fin 2, Branch ((![quad 0, quad 1] : Fin 2 → ℝ → ℝ) j) ((fun _ T => T : Fin 2 → ℝ → ℝ) j))
    ∧ (∀ i : Fin 2, quad 0 2 ≤ (![quad 0, quad 1] : Fin 2 → ℝ → ℝ) i 2)
    ∧ quad 1 1 + 1 * 1 = quad 0 (Real.sqrt 3) + Real.sqrt 3 * Real.sqrt 3 := by
  refine ⟨?_, ?_, ?_⟩
  · intro j; fin_cases j
    · exact quad_branch 0
    · exact quad_branch 1
  · intro i; fin_cases i <;> simp [quad]
  · simp only [quad]
    rw [Real.sq_sqrt (by norm_num), Real.mul_self_sqrt (by norm_num)]
    norm_num

/-- **C94 fails.** At specified pressure and internal energy the state of highest entropy is preferred, but it may be of a phase that is
unstable at every temperature, while the other is stable at every temperature and also meets the specification. -/
theorem C94_PU_fails : ∃ (G S : Fin 2 → ℝ → ℝ) (V : Fin 2 → ℝ) (P T0 T : ℝ), (∀ j, Branch (G j) (S j)) ∧ 0 < P ∧ (∀ j, 0 < V j) ∧ 0 < T0
    ∧ 0 < T ∧ (∀ t, G 0 t < G 1 t) ∧ G 1 T + T * S 1 T - P * V 1 = G 0 T0 + T0 * S 0 T0 - P * V 0
    ∧ criterion .P .U ⟨G 1 T + T * S 1 T, S 1 T, G 1 T, G 1 T + T * S 1 T - P * V 1⟩
      < criterion .P .U ⟨G 0 T0 + T0 * S 0 T0, S 0 T0, G 0 T0, G 0 T0 + T0 * S 0 T0 - P * V 0⟩ := by
  refine ⟨![quad 0, quad 1], fun _ T => T, ![1, 21 / 8], 1, 1, 3 / 2, ?_, one_pos, ?_, one_pos, by norm_num, ?_, ?_, ?_⟩
  · intro j; fin_cases j
    · exact quad_branch 0
    · exact quad_branch 1
  · intro j; fin_cases j <;> simp
  · intro t; simp [quad]
  · simp [quad]; norm_num
  · simp [criterion, quad]; norm_num

/-- **C94 fails.** At specified temperature Gibbs energies of states of different pressure are compared: a state of a phase that is
unstable at every pressure is preferred, because its pressure is lower. -/
theorem C94_TS_fails : ∃ (G S : Fin 2 → ℝ → ℝ) (P0 P1 : ℝ), 0 < P1 ∧ 0 < P0 ∧ (∀ p, G 0 p < G 1 p) ∧ S 0 P0 = S 1 P1
    ∧ criterion .T .S ⟨0, S 1 P1, G 1 P1, 0⟩ < criterion .T .S ⟨0, S 0 P0, G 0 P0, 0⟩ := by
  refine ⟨![fun p => p, fun p => p + 1], ![fun p => -p, fun p => -5 * p], 5, 1, one_pos, by norm_num, ?_, ?_, ?_⟩
  · intro p; simp
  · simp
  · simp [criterion]; norm_num

/-! ## The choice (731-747, 802-894) -/

/-- A solution with one phase: temperature and value of the criterion. -/
structure Sol where
  (T val : ℝ)

/-- `selection_fun_1P` (734-747): with pressure and entropy specified a lower value is not better if it is that of a solution below one
kelvin and the other is above, and a value that is not lower is better in the opposite case. -/
def better (f : Fixed) (s : Spec) (new prev : Sol) : Prop :=
  (f = .P ∧ s = .S → (new.val < prev.val → ¬ (new.T < 1 ∧ prev.T > 1)) ∧ (¬ new.val < prev.val → prev.T < 1 ∧ new.T > 1))
    ∧ (¬ (f = .P ∧ s = .S) → new.val < prev.val)

theorem better_other {f : Fixed} {s : Spec} (h : ¬ (f = .P ∧ s = .S)) (a b : Sol) : better f s a b ↔ a.val < b.val :=
  ⟨fun hb => hb.2 h, fun hl => ⟨fun hh => absurd hh h, fun _ => hl⟩⟩

theorem better_lt {a b : Sol} (h : a.val < b.val) : better .P .S a b ↔ ¬ (a.T < 1 ∧ b.T > 1) :=
  ⟨fun hb => (hb.1 ⟨rfl, rfl⟩).1 h, fun hl => ⟨fun _ => ⟨fun _ => hl, fun hn => absurd h hn⟩, fun hn => absurd ⟨rfl, rfl⟩ hn⟩⟩

theorem better_ge {a b : Sol} (h : ¬ a.val < b.val) : better .P .S a b ↔ b.T < 1 ∧ a.T > 1 :=
  ⟨fun hb => (hb.1 ⟨rfl, rfl⟩).2 h, fun hl => ⟨fun _ => ⟨fun hn => absurd hn h, fun _ => hl⟩, fun hn => absurd ⟨rfl, rfl⟩ hn⟩⟩

open Classical in
/-- The loop over phases (802-820); `none` is a phase without solution. -/
noncomputable def choose (f : Fixed) (s : Spec) : List (Option Sol) → Option Sol → Option Sol
  | [], b => b
  | none :: xs, b => choose f s xs b
  | some x :: xs, none => choose f s xs (some x)
  | some x :: xs, some b => choose f s xs (if better f s x b then some x else some b)

/-- **C94.** Except for specified pressure and entropy the solution chosen is one of those found and has the least value. -/
theorem C94_choice (f : Fixed) (s : Spec) (h : ¬ (f = .P ∧ s = .S)) (xs : List (Option Sol)) (b : Option Sol) :
    (∀ x, some x ∈ b :: xs → ∃ r, choose f s xs b = some r ∧ r.val ≤ x.val)
      ∧ ∀ r, choose f s xs b = some r → some r ∈ b :: xs := by
  induction xs generalizing b with
  | nil =>
    simp only [choose]
    refine ⟨fun x hx => ⟨x, by simpa [eq_comm] using hx, le_rfl⟩, fun r hr => by simp [hr]⟩
  | cons a as ih =>
    cases a with
    | none =>
      obtain ⟨h1, h2⟩ := ih b
      simp only [choose]
      refine ⟨fun x hx => h1 x (by simpa using hx), fun r hr => ?_⟩
      have := h2 r hr
      simp only [List.mem_cons] at this ⊢
      tauto
    | some a =>
      cases b with
      | none =>
        obtain ⟨h1, h2⟩ := ih (some a)
        simp only [choose]
        refine ⟨fun x hx => h1 x (by simpa using hx), fun r hr => ?_⟩
        have := h2 r hr
        simp only [List.mem_cons] at this ⊢
        tauto
      | some b =>
        simp only [choose]
        by_cases hlt : a.val < b.val
        · rw [if_pos ((better_other h a b).2 hlt)]
          obtain ⟨h1, h2⟩ := ih (some a)
          refine ⟨fun x hx => ?_, fun r hr => ?_⟩
          · simp only [List.mem_cons, Option.some.injEq] at hx
            rcases hx with hx | hx | hx
            · obtain ⟨r, hr, hra⟩ := h1 a (by simp)
              exact ⟨r, hr, by rw [hx]; linarith⟩
            · exact h1 x (by simp [hx])
            · exact h1 x (by simp [hx])
          · have := h2 r hr
            simp only [List.mem_cons] at this ⊢
            tauto
        · rw [if_neg (fun hb => hlt ((better_other h a b).1 hb))]
          obtain ⟨h1, h2⟩ := ih (some b)
          refine ⟨fun x hx => ?_, fun r hr => ?_⟩
          · simp only [List.mem_cons, Option.some.injEq] at hx
            rcases hx with hx | hx | hx
            · exact h1 x (by simp [hx])
            · obtain ⟨r, hr, hra⟩ := h1 b (by simp)
              exact ⟨r, hr, by rw [hx]; linarith⟩
            · exact h1 x (by simp [hx])
          · have := h2 r hr
            simp only [List.mem_cons] at this ⊢
            tauto

theorem choose_hot (xs : List (Option Sol)) (b : Option Sol) (hb : ∀ x, b = some x → x.T ≠ 1) (hne : ∀ x, some x ∈ xs → x.T ≠ 1) :
    (∀ x, some x ∈ b :: xs → 1 < x.T → ∃ r, choose .P .S xs b = some r ∧ 1 < r.T ∧ r.val ≤ x.val)
      ∧ ∀ r, choose .P .S xs b = some r → some r ∈ b :: xs := by
  induction xs generalizing b with
  | nil =>
    simp only [choose]
    refine ⟨fun x hx h1 => ⟨x, by simpa [eq_comm] using hx, h1, le_rfl⟩, fun r hr => by simp [hr]⟩
  | cons a as ih =>
    have hne' : ∀ x, some x ∈ as → x.T ≠ 1 := fun x hx => hne x (by simp [hx])
    cases a with
    | none =>
      obtain ⟨h1, h2⟩ := ih b hb hne'
      simp only [choose]
      refine ⟨fun x hx => h1 x (by simpa using hx), fun r hr => ?_⟩
      have := h2 r hr
      simp only [List.mem_cons] at this ⊢
      tauto
    | some a =>
      have ha : a.T ≠ 1 := hne a (by simp)
      cases b with
      | none =>
        obtain ⟨h1, h2⟩ := ih (some a) (fun x hx => by rw [Option.some.injEq] at hx; rw [← hx]; exact ha) hne'
        simp only [choose]
        refine ⟨fun x hx => h1 x (by simpa using hx), fun r hr => ?_⟩
        have := h2 r hr
        simp only [List.mem_cons] at this ⊢
        tauto
      | some b =>
        have hbT : b.T ≠ 1 := hb b rfl
        simp only [choose]
        obtain ⟨a1, a2⟩ := ih (some a) (fun x hx => by rw [Option.some.injEq] at hx; rw [← hx]; exact ha) hne'
        obtain ⟨b1, b2⟩ := ih (some b) (fun x hx => by rw [Option.some.injEq] at hx; rw [← hx]; exact hbT) hne'
        by_cases hlt : a.val < b.val
        · by_cases hc : a.T < 1 ∧ b.T > 1
          · rw [if_neg (fun hb => (better_lt hlt).1 hb hc)]
            refine ⟨fun x hx hx1 => ?_, fun r hr => ?_⟩
            · simp only [List.mem_cons, Option.some.injEq] at hx
              rcases hx with hx | hx | hx
              · exact b1 x (by simp [hx]) hx1
              · rw [hx] at hx1; linarith [hc.1]
              · exact b1 x (by simp [hx]) hx1
            · have := b2 r hr
              simp only [List.mem_cons] at this ⊢
              tauto
          · rw [if_pos ((better_lt hlt).2 hc)]
            refine ⟨fun x hx hx1 => ?_, fun r hr => ?_⟩
            · simp only [List.mem_cons, Option.some.injEq] at hx
              rcases hx with hx | hx | hx
              · have haT : 1 < a.T := by
                  rcases lt_or_gt_of_ne ha with h | h
                  · exact absurd ⟨h, by rw [← hx]; exact hx1⟩ hc
                  · exact h
                obtain ⟨r, hr, hr1, hra⟩ := a1 a (by simp) haT
                exact ⟨r, hr, hr1, by rw [hx]; linarith⟩
              · exact a1 x (by simp [hx]) hx1
              · exact a1 x (by simp [hx]) hx1
            · have := a2 r hr
              simp only [List.mem_cons] at this ⊢
              tauto
        · by_cases hc : b.T < 1 ∧ a.T > 1
          · rw [if_pos ((better_ge hlt).2 hc)]
            refine ⟨fun x hx hx1 => ?_, fun r hr => ?_⟩
            · simp only [List.mem_cons, Option.some.injEq] at hx
              rcases hx with hx | hx | hx
              · rw [hx] at hx1; linarith [hc.1]
              · exact a1 x (by simp [hx]) hx1
              · exact a1 x (by simp [hx]) hx1
            · have := a2 r hr
              simp only [List.mem_cons] at this ⊢
              tauto
          · rw [if_neg (fun hb => hc ((better_ge hlt).1 hb))]
            refine ⟨fun x hx hx1 => ?_, fun r hr => ?_⟩
            · simp only [List.mem_cons, Option.some.injEq] at hx
              rcases hx with hx | hx | hx
              · exact b1 x (by simp [hx]) hx1
              · have hbT' : 1 < b.T := by
                  rcases lt_or_gt_of_ne hbT with h | h
                  · exact absurd ⟨h, by rw [← hx]; exact hx1⟩ hc
                  · exact h
                obtain ⟨r, hr, hr1, hrb⟩ := b1 b (by simp) hbT'
                exact ⟨r, hr, hr1, by rw [hx]; linarith⟩
              · exact b1 x (by simp [hx]) hx1
            · have := b2 r hr
              simp only [List.mem_cons] at this ⊢
              tauto

/-- **C94.** For specified pressure and entropy the solution chosen is above one kelvin if any is, and has the least enthalpy of those
that are, whatever the order of phases. -/
theorem C94_choice_PS (xs : List (Option Sol)) (hne : ∀ x, some x ∈ xs → x.T ≠ 1) :
    ∀ x, some x ∈ xs → 1 < x.T → ∃ r, choose .P .S xs none = some r ∧ some r ∈ xs ∧ 1 < r.T ∧ r.val ≤ x.val := by
  intro x hx h1
  obtain ⟨a, b⟩ := choose_hot xs none (by simp) hne
  obtain ⟨r, hr, hr1, hrx⟩ := a x (by simp [hx]) h1
  have := b r hr
  exact ⟨r, hr, by simpa using this, hr1, hrx⟩

/-- Three solutions, one below one kelvin. -/
example : choose .P .S [some ⟨300, 5⟩, none, some ⟨1 / 2, 1⟩, some ⟨200, 4⟩] none = some ⟨200, 4⟩
    ∧ choose .P .H [some ⟨300, 5⟩, none, some ⟨200, 4⟩, some ⟨100, 7⟩] none = some ⟨200, 4⟩ := by
  constructor
  · rw [choose, choose, choose, if_neg (fun hb => (better_lt (by norm_num)).1 hb ⟨by norm_num, by norm_num⟩), choose,
      if_pos ((better_lt (by norm_num)).2 (by norm_num)), choose]
  · rw [choose, choose, choose, if_pos ((better_other (by simp) _ _).2 (by norm_num)), choose,
      if_neg (fun hb => absurd ((better_other (by simp) _ _).1 hb) (by norm_num)), choose]

/-! ### Two phases -/

/-- Vapor fraction of a specified value (637, 779). -/
noncomputable def lever (spec l g : ℝ) : ℝ := (spec - l) / (g - l)

/-- **C94.** The two phases with this fraction have the specified value, and the fraction is between zero and one exactly if the value is
between those of the phases; below zero the value is beyond that of the liquid. -/
theorem C94_lever (spec l g : ℝ) (h : l ≠ g) :
    lever spec l g * g + (1 - lever spec l g) * l = spec
      ∧ (0 ≤ lever spec l g ∧ lever spec l g ≤ 1 ↔ min l g ≤ spec ∧ spec ≤ max l g)
      ∧ (l < g → (lever spec l g < 0 ↔ spec < l) ∧ (1 < lever spec l g ↔ g < spec)) := by
  have hne : g - l ≠ 0 := sub_ne_zero.2 h.symm
  refine ⟨?_, ?_, ?_⟩
  · unfold lever; field_simp; ring
  · unfold lever
    rcases lt_or_gt_of_ne h with hlt | hgt
    · rw [min_eq_left hlt.le, max_eq_right hlt.le, le_div_iff₀ (by linarith), div_le_iff₀ (by linarith)]
      constructor
      · rintro ⟨a, b⟩; constructor <;> linarith
      · rintro ⟨a, b⟩; constructor <;> linarith
    · rw [min_eq_right hgt.le, max_eq_left hgt.le, le_div_iff_of_neg (by linarith), div_le_iff_of_neg (by linarith)]
      constructor
      · rintro ⟨a, b⟩; constructor <;> linarith
      · rintro ⟨a, b⟩; constructor <;> linarith
  · intro hlt
    unfold lever
    rw [div_lt_iff₀ (by linarith), lt_div_iff₀ (by linarith)]
    constructor
    · constructor <;> intro h <;> linarith
    · constructor <;> intro h <;> linarith

example : lever 3 1 5 = 1 / 2 := by unfold lever; norm_num

/-- Vapor fraction with `spec_fun` if both errors have one sign (634). -/
noncomputable def leverFun (spec el eg : ℝ) : ℝ := (spec - el) / (eg - el)

/-- Error at a vapor fraction, for a target that is linear in it. -/
noncomputable def errAt (el eg VF : ℝ) : ℝ := VF * eg + (1 - VF) * el

/-- **C94 fails.** With `spec_fun` the specified value is used as if the errors were values: a fraction between zero and one is returned
although the error is positive there and everywhere between zero and one. -/
theorem C94_specfun_fails : ∃ spec el eg : ℝ, ¬ eg * el < 0 ∧ 0 ≤ leverFun spec el eg ∧ leverFun spec el eg ≤ 1
    ∧ errAt el eg (leverFun spec el eg) ≠ 0 ∧ ∀ v, 0 ≤ v → v ≤ 1 → 0 < errAt el eg v := by
  refine ⟨2, 1, 3, by norm_num, by unfold leverFun; norm_num, by unfold leverFun; norm_num, by unfold errAt leverFun; norm_num, ?_⟩
  intro v h0 h1
  unfold errAt
  linarith

/-- **C94.** It would be right for the specified value zero only. -/
theorem C94_specfun_partial (spec el eg : ℝ) (h : el ≠ eg) : errAt el eg (leverFun spec el eg) = 0 ↔ spec = 0 := by
  have hne : eg - el ≠ 0 := sub_ne_zero.2 h.symm
  have : errAt el eg (leverFun spec el eg) = spec := by
    unfold errAt leverFun; field_simp; ring
  rw [this]

/-- What is decided between one and two phases (780-785, 862-894): `none` is an exception. -/
inductive Outcome
  | one (s : Sol)
  | two (VF : ℝ)
deriving Inhabited

/-- Values of a criterion for liquid and gas at saturation, and of the specified property. -/
structure VL where
  (specL specG funL funG : ℝ)

open Classical in
/-- `G_VL` (763, 779-785); `none` is no saturation at the fixed variable. -/
noncomputable def valueVL (spec : ℝ) : Option VL → ℝ
  | none => (10 : ℝ) ^ 100
  | some v =>
    if v.specL = v.specG then (10 : ℝ) ^ 100
    else if 0 ≤ lever spec v.specL v.specG ∧ lever spec v.specL v.specG ≤ 1 then
      v.funG * lever spec v.specL v.specG + v.funL * (1 - lever spec v.specL v.specG)
    else (10 : ℝ) ^ 100

/-- `G_min` after the loop over phases. -/
noncomputable def gMin : Option Sol → ℝ
  | some s => s.val
  | none => (10 : ℝ) ^ 100

open Classical in
/-- Lines 851-894: `SF` is what was calculated for a solid with another phase, which is not used. -/
noncomputable def decide2 (spec : ℝ) (vl : Option VL) (one : Option Sol) (_SF : Option ℝ) : Option Outcome :=
  if valueVL spec vl < gMin one then
    match vl with
    | some v => some (.two (lever spec v.specL v.specG))
    | none => none
  else if gMin one = (10 : ℝ) ^ 100 then none
  else match one with
    | some s => some (.one s)
    | none => none

/-- **C94.** If two phases are returned, they meet the specification with a fraction between zero and one, and have a lower value than
every solution with one phase; if one phase is returned, two phases do not have a lower value. -/
theorem C94_decide (spec : ℝ) (vl : Option VL) (one : Option Sol) (SF : Option ℝ)
    (h1 : ∀ s, one = some s → s.val < (10 : ℝ) ^ 100) :
    (∀ VF, decide2 spec vl one SF = some (.two VF) → ∃ v, vl = some v ∧ 0 ≤ VF ∧ VF ≤ 1 ∧ VF * v.specG + (1 - VF) * v.specL = spec
        ∧ ∀ s, one = some s → VF * v.funG + (1 - VF) * v.funL < s.val)
      ∧ (∀ s, decide2 spec vl one SF = some (.one s) → one = some s ∧ ∀ v VF, vl = some v → v.specL ≠ v.specG → 0 ≤ VF → VF ≤ 1 →
        VF * v.specG + (1 - VF) * v.specL = spec → s.val ≤ VF * v.funG + (1 - VF) * v.funL) := by
  constructor
  · intro VF h
    unfold decide2 at h
    by_cases hlt : valueVL spec vl < gMin one
    · simp only [if_pos hlt] at h
      cases vl with
      | none => simp at h
      | some v =>
        simp only [Option.some.injEq, Outcome.two.injEq] at h
        have hG : gMin one ≤ (10 : ℝ) ^ 100 := by
          cases one with
          | none => exact le_rfl
          | some s => exact (h1 s rfl).le
        unfold valueVL at hlt
        dsimp only at hlt
        split_ifs at hlt with ha hb
        · linarith
        · refine ⟨v, rfl, ?_⟩
          rw [← h]
          refine ⟨hb.1, hb.2, (C94_lever spec v.specL v.specG ha).1, ?_⟩
          intro s hs
          rw [hs] at hlt
          simp only [gMin] at hlt
          linarith
        · linarith
    · simp only [if_neg hlt] at h
      split_ifs at h
      cases one with
      | none => simp at h
      | some s => simp at h
  · intro s h
    unfold decide2 at h
    by_cases hlt : valueVL spec vl < gMin one
    · simp only [if_pos hlt] at h
      cases vl with
      | none => simp at h
      | some v => simp at h
    · simp only [if_neg hlt] at h
      split_ifs at h
      cases one with
      | none => simp at h
      | some s' =>
        simp only [Option.some.injEq, Outcome.one.injEq] at h
        subst h
        refine ⟨rfl, fun v VF hvl hne h0 h1' hspec => ?_⟩
        subst hvl
        have hVF : VF = lever spec v.specL v.specG := by
          unfold lever
          rw [eq_div_iff (sub_ne_zero.2 hne.symm)]
          linarith
        have hle := not_lt.1 hlt
        unfold valueVL at hle
        dsimp only at hle
        rw [if_neg hne, if_pos (by rw [← hVF]; exact ⟨h0, h1'⟩), ← hVF] at hle
        simp only [gMin] at hle
        linarith

/-- Two phases with a higher entropy than the metastable solution. -/
example : decide2 3 (some ⟨1, 5, -1, -3⟩) (some ⟨300, -1⟩) none = some (.two (1 / 2))
    ∧ decide2 3 (some ⟨1, 5, -1, -3⟩) (some ⟨300, -4⟩) none = some (.one ⟨300, -4⟩) := by
  have h : lever 3 1 5 = 1 / 2 := by unfold lever; norm_num
  constructor
  · simp only [decide2, valueVL, gMin, h]
    norm_num
  · simp only [decide2, valueVL, gMin, h]
    norm_num

/-- Fraction and value of a solid with another phase (833, 837-839). -/
noncomputable def valueSF (spec specS specO funS funO : ℝ) : ℝ :=
  let SF := (spec - specS) / (specO - specS)
  funS * SF + funO * (1 - SF)

/-- **C94 fails.** A solid in equilibrium with another phase is never returned, even if it has a lower value of the criterion than the
solution with one phase; and the fraction calculated for the solid is that of the other phase. -/
theorem C94_solid_fails : ∃ (spec specS specO funS funO : ℝ) (s : Sol), specS < spec ∧ spec < specO
    ∧ (let f := (spec - specS) / (specO - specS); f * specO + (1 - f) * specS = spec ∧ f * funO + (1 - f) * funS < s.val
      ∧ f * specS + (1 - f) * specO ≠ spec)
    ∧ decide2 spec none (some s) (some (valueSF spec specS specO funS funO)) = some (.one s) := by
  refine ⟨1, 0, 4, -1, -5, ⟨300, 0⟩, by norm_num, by norm_num, by norm_num, ?_⟩
  simp only [decide2, valueVL, gMin]
  norm_num

/-! ### The search that starts with saturation (638-693) -/

/-- Result for one phase: whether the equation of state has two roots there, and whether the phase is that of lower Gibbs energy. -/
structure One where
  (twoRoots lowest : Bool)

/-- The loop (654-693) for cubic equations of state: the number of the phase returned. `none` is the value `None`, which the caller
cannot unpack. -/
def boundLoop : List (Option One) → ℕ → Option ℕ
  | [], _ => none
  | none :: xs, k => boundLoop xs (k + 1)
  | some x :: xs, k => if x.twoRoots && !x.lowest then boundLoop xs (k + 1) else some k

/-- **C94.** The phase returned is the first that has a solution that is not metastable; if there is none, nothing is returned. -/
theorem C94_bound (xs : List (Option One)) (k : ℕ) :
    (∀ j, boundLoop xs k = some j → ∃ i x, j = k + i ∧ xs[i]? = some (some x) ∧ (x.twoRoots = true → x.lowest = true)
        ∧ ∀ i' < i, ∀ y, xs[i']? = some (some y) → y.twoRoots = true ∧ y.lowest = false)
      ∧ (boundLoop xs k = none ↔ ∀ y, some y ∈ xs → y.twoRoots = true ∧ y.lowest = false) := by
  induction xs generalizing k with
  | nil => simp [boundLoop]
  | cons a as ih =>
    obtain ⟨h1, h2⟩ := ih (k + 1)
    cases a with
    | none =>
      simp only [boundLoop]
      refine ⟨fun j hj => ?_, ?_⟩
      · obtain ⟨i, x, hi, hx, hl, hp⟩ := h1 j hj
        refine ⟨i + 1, x, by omega, hx, hl, fun i' hi' y hy => ?_⟩
        cases i' with
        | zero => simp at hy
        | succ i' => exact hp i' (by omega) y hy
      · rw [h2]
        constructor
        · intro h y hy; exact h y (by simpa using hy)
        · intro h y hy; exact h y (by simp [hy])
    | some a =>
      simp only [boundLoop]
      split_ifs with hc
      · have hc' : a.twoRoots = true ∧ a.lowest = false := by simpa using hc
        refine ⟨fun j hj => ?_, ?_⟩
        · obtain ⟨i, x, hi, hx, hl, hp⟩ := h1 j hj
          refine ⟨i + 1, x, by omega, hx, hl, fun i' hi' y hy => ?_⟩
          cases i' with
          | zero =>
            simp only [List.getElem?_cons_zero, Option.some.injEq] at hy
            rw [← hy]; exact hc'
          | succ i' => exact hp i' (by omega) y hy
        · rw [h2]
          constructor
          · intro h y hy
            simp only [List.mem_cons, Option.some.injEq] at hy
            rcases hy with hy | hy
            · rw [hy]; exact hc'
            · exact h y hy
          · intro h y hy; exact h y (by simp [hy])
      · refine ⟨fun j hj => ?_, ?_⟩
        · rw [Option.some.injEq] at hj
          refine ⟨0, a, by omega, rfl, ?_, by omega⟩
          intro ht
          simpa [ht] using hc
        · simp only [reduceCtorEq, false_iff]
          intro h
          have := h a (by simp)
          exact hc (by simp [this.1, this.2])

example : boundLoop [some ⟨true, false⟩, some ⟨false, true⟩] 0 = some 1 := rfl

/-- **C94 fails.** If no phase has a solution that is not metastable, `None` is returned and the caller fails instead of trying the general
method. -/
theorem C94_bound_fails : boundLoop [none, some ⟨true, false⟩] 0 = none := rfl

/-! ## Specified vapor fraction (1013-1046, 1106-1256) -/

/-- Line 1033. -/
noncomputable def tMid (Tmin Tmax : ℝ) : ℝ := 1 / 10 * Tmin + 95 / 100 * Tmax
/-- Line 1034. -/
noncomputable def tNext (Tmin Tmax : ℝ) : ℝ := 45 / 1000 * Tmin + 955 / 1000 * Tmax

/-- **C94.** The upper part of the grid starts inside the range. The weights of the end of the lower part do not sum to one: it is inside
the range only if the least temperature is at most half of the highest, and overlaps with the upper part if it is more than
an eleventh. -/
theorem C94_grid_partial (Tmin Tmax : ℝ) (h0 : 0 < Tmin) (h : Tmin < Tmax) :
    Tmin < tNext Tmin Tmax ∧ tNext Tmin Tmax < Tmax ∧ (tMid Tmin Tmax ≤ Tmax ↔ 2 * Tmin ≤ Tmax)
      ∧ (tNext Tmin Tmax < tMid Tmin Tmax ↔ Tmax < 11 * Tmin) := by
  unfold tMid tNext
  refine ⟨by linarith, by linarith, ?_, ?_⟩
  · constructor <;> intro h <;> linarith
  · constructor <;> intro h <;> linarith

/-- **C94 fails.** For a substance with a narrow range the grid has temperatures above the highest. -/
theorem C94_grid_fails : ∃ Tmin Tmax : ℝ, 0 < Tmin ∧ Tmin < Tmax ∧ Tmax < tMid Tmin Tmax :=
  ⟨60, 100, by norm_num, by norm_num, by unfold tMid; norm_num⟩

/-- Partial derivatives by temperature and pressure. -/
def Part (f : ℝ → ℝ → ℝ) (a b T P : ℝ) : Prop :=
  HasFDerivAt (fun q : ℝ × ℝ => f q.1 q.2) (a • ContinuousLinearMap.fst ℝ ℝ ℝ + b • ContinuousLinearMap.snd ℝ ℝ ℝ) (T, P)

theorem Part.along {f : ℝ → ℝ → ℝ} {a b T P' : ℝ} {P : ℝ → ℝ} (h : Part f a b T (P T)) (hP : HasDerivAt P P' T) :
    HasDerivAt (fun t => f t (P t)) (a + b * P') T := by
  have hc : HasDerivAt (fun t => (t, P t)) ((1 : ℝ), P') T := (hasDerivAt_id' T).prodMk hP
  unfold Part at h
  have := HasFDerivAt.comp_hasDerivAt (f := fun t => (t, P t)) T h hc
  refine this.congr_deriv ?_
  simp

/-- `dPsat_dT` (1149, 1274, 1311). -/
noncomputable def dPsat (dfgT dflT dfgP dflP : ℝ) : ℝ := (dfgT - dflT) / (dflP - dfgP)

/-- `dv` (1154-1156, 1276-1278, 1313-1315) from derivatives of the specified property of gas and liquid. -/
noncomputable def dv (VF dP dgP dgT dlP dlT : ℝ) : ℝ := (dP * dlP + dlT) * (1 - VF) + (dP * dgP + dgT) * VF

/-- **C94.** Along the saturation line, where fugacities of liquid and gas agree, `dPsat_dT` is the slope of the saturation pressure, and
`dv` is the derivative of the specified property of the two phases at constant vapor fraction. -/
theorem C94_saturation_slope (fl fg vl vg : ℝ → ℝ → ℝ) (Psat : ℝ → ℝ) (T P' dflT dflP dfgT dfgP dlT dlP dgT dgP VF : ℝ)
    (hfl : Part fl dflT dflP T (Psat T)) (hfg : Part fg dfgT dfgP T (Psat T)) (hvl : Part vl dlT dlP T (Psat T))
    (hvg : Part vg dgT dgP T (Psat T)) (hP : HasDerivAt Psat P' T) (heq : ∀ t, fl t (Psat t) = fg t (Psat t)) (hne : dflP ≠ dfgP) :
    dPsat dfgT dflT dfgP dflP = P'
      ∧ HasDerivAt (fun t => vg t (Psat t) * VF + vl t (Psat t) * (1 - VF)) (dv VF (dPsat dfgT dflT dfgP dflP) dgP dgT dlP dlT) T := by
  have h1 := hfl.along hP
  have h2 := hfg.along hP
  have h3 : (fun t => fl t (Psat t)) = fun t => fg t (Psat t) := funext heq
  rw [h3] at h1
  have h4 := h1.unique h2
  have h5 : dPsat dfgT dflT dfgP dflP = P' := by
    unfold dPsat
    rw [div_eq_iff (sub_ne_zero.2 hne)]
    linarith
  refine ⟨h5, ?_⟩
  rw [h5]
  have := ((hvg.along hP).mul_const VF).fun_add ((hvl.along hP).mul_const (1 - VF))
  refine this.congr_deriv ?_
  unfold dv
  ring

/-- An ideal gas over a liquid with vapor pressure equal to temperature. -/
example : Part (fun T _ => T) 1 0 2 2 ∧ Part (fun _ P => P) 0 1 2 2 ∧ dPsat 0 1 1 0 = 1 := by
  refine ⟨?_, ?_, by unfold dPsat; norm_num⟩
  · unfold Part
    simpa using (ContinuousLinearMap.fst ℝ ℝ ℝ).hasFDerivAt (x := ((2 : ℝ), (2 : ℝ)))
  · unfold Part
    simpa using (ContinuousLinearMap.snd ℝ ℝ ℝ).hasFDerivAt (x := ((2 : ℝ), (2 : ℝ)))

/-- `bounding_idx` (1160-1162): pairs of neighbours between whose values the specified one is. -/
noncomputable def bounding (spec : ℝ) : List (ℝ × ℝ) → List (ℝ × ℝ)
  | a :: b :: xs =>
    open Classical in
    if (b.2 ≤ spec ∧ spec ≤ a.2) ∨ (a.2 ≤ spec ∧ spec ≤ b.2) then (a.1, b.1) :: bounding spec (b :: xs) else bounding spec (b :: xs)
  | _ => []

/-- **C94.** Every interval found contains a temperature with the specified value, if the property is continuous. -/
theorem C94_bounding (v : ℝ → ℝ) (hv : Continuous v) (spec : ℝ) (Ts : List ℝ) (hs : Ts.Pairwise (· ≤ ·)) (lo hi : ℝ)
    (h : (lo, hi) ∈ bounding spec (Ts.map fun t => (t, v t))) : ∃ t, lo ≤ t ∧ t ≤ hi ∧ v t = spec := by
  induction Ts with
  | nil => simp [bounding] at h
  | cons a as ih =>
    cases as with
    | nil => simp [bounding] at h
    | cons b bs =>
      have hs' := (List.pairwise_cons.1 hs).2
      have hab : a ≤ b := (List.pairwise_cons.1 hs).1 b (by simp)
      simp only [List.map_cons] at h ih
      unfold bounding at h
      split_ifs at h with hc
      · rcases List.mem_cons.1 h with h | h
        · simp only [Prod.mk.injEq] at h
          obtain ⟨rfl, rfl⟩ := h
          rcases hc with ⟨h1, h2⟩ | ⟨h1, h2⟩
          · obtain ⟨t, ht, he⟩ := intermediate_value_Icc' hab hv.continuousOn ⟨h1, h2⟩
            exact ⟨t, ht.1, ht.2, he⟩
          · obtain ⟨t, ht, he⟩ := intermediate_value_Icc hab hv.continuousOn ⟨h1, h2⟩
            exact ⟨t, ht.1, ht.2, he⟩
        · exact ih hs' h
      · exact ih hs' h

/-- **C94.** If no interval is found, no neighbours of the grid have the specified value between theirs. -/
theorem C94_bounding_all (spec : ℝ) (xs ys : List (ℝ × ℝ)) (a b : ℝ × ℝ)
    (h : (a.2 ≤ spec ∧ spec ≤ b.2) ∨ (b.2 ≤ spec ∧ spec ≤ a.2)) : (a.1, b.1) ∈ bounding spec (xs ++ a :: b :: ys) := by
  induction xs with
  | nil =>
    simp only [List.nil_append]
    unfold bounding
    rw [if_pos h.symm]
    simp
  | cons x xs ih =>
    have : ∀ c cs, xs ++ a :: b :: ys = c :: cs → (a.1, b.1) ∈ bounding spec (x :: c :: cs) := by
      intro c cs e
      unfold bounding
      rw [e] at ih
      split_ifs
      · exact List.mem_cons_of_mem _ ih
      · exact ih
    cases hx : xs ++ a :: b :: ys with
    | nil => simp at hx
    | cons c cs =>
      rw [List.cons_append, hx]
      exact this c cs hx

example : bounding 2 [(1, 1), (2, 3), (3, 0)] = [(1, 2), (2, 3)] := by
  simp [bounding]
  norm_num

/-- Requested solution. -/
inductive Want
  | high
  | mid
  | low
  | unspecified
  | index (k : ℕ)

/-- Number of the interval used (1193-1200, 1233-1239) among `n ≥ 2`; `none` is an exception. -/
def interval : Want → ℕ → Option ℕ
  | .high, 2 => some 1
  | .unspecified, 2 => some 1
  | _, 2 => some 0
  | .index k, n => if k < n then some k else none
  | .high, n => some (n - 1)
  | .mid, n => some (n - 2)
  | .low, _ => some 0
  | .unspecified, _ => none

/-- **C94.** Of several intervals the last is used for `high` and the first for `low`. -/
theorem C94_interval (n : ℕ) (h : 2 ≤ n) : interval .high n = some (n - 1) ∧ interval .low n = some 0 := by
  match n, h with
  | 2, _ => exact ⟨rfl, rfl⟩
  | n + 3, _ => exact ⟨rfl, rfl⟩

example : interval .high 5 = some 4 := rfl

/-- **C94 fails.** A number is used as such with three or more intervals but not with two, and without a request there is an
exception with three or more. -/
theorem C94_interval_fails : interval (.index 1) 2 = some 0 ∧ interval (.index 1) 3 = some 1 ∧ interval .unspecified 2 = some 1
    ∧ interval .unspecified 3 = none := ⟨rfl, rfl, rfl, rfl⟩

open Classical in
/-- The guess (1248-1254). -/
noncomputable def vfGuess (lo hi vlo vhi dlo dhi spec : ℝ) : ℝ :=
  let gl := lo - (vlo - spec) / dlo
  let gh := hi - (vhi - spec) / dhi
  if (lo < gl ∧ gl < hi) ∧ (lo < gh ∧ gh < hi) then 1 / 2 * (gl + gh) else 1 / 2 * (lo + hi)

/-- **C94.** The guess is inside the interval, and exact for a linear property. -/
theorem C94_vfGuess (lo hi vlo vhi dlo dhi spec : ℝ) (h : lo < hi) :
    lo < vfGuess lo hi vlo vhi dlo dhi spec ∧ vfGuess lo hi vlo vhi dlo dhi spec < hi
      ∧ ∀ a b t, a ≠ 0 → lo < t → t < hi → vfGuess lo hi (a * lo + b) (a * hi + b) a a (a * t + b) = t := by
  refine ⟨?_, ?_, ?_⟩
  · unfold vfGuess; dsimp only; split_ifs with hc
    · linarith [hc.1.1, hc.2.1]
    · linarith
  · unfold vfGuess; dsimp only; split_ifs with hc
    · linarith [hc.1.2, hc.2.2]
    · linarith
  · intro a b t ha h1 h2
    have e1 : lo - (a * lo + b - (a * t + b)) / a = t := by field_simp; ring
    have e2 : hi - (a * hi + b - (a * t + b)) / a = t := by field_simp; ring
    unfold vfGuess
    dsimp only
    rw [e1, e2, if_pos ⟨⟨h1, h2⟩, h1, h2⟩]
    ring

example : vfGuess 0 4 0 8 2 2 6 = 3 := by
  unfold vfGuess; norm_num

end Verif.FlashPure
