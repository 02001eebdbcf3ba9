import Mathlib.Data.Real.Basic
import Mathlib.Algebra.BigOperators.Fin
import Mathlib.Algebra.BigOperators.Field
import Mathlib.Analysis.SpecialFunctions.Log.Deriv
import Mathlib.Analysis.SpecialFunctions.ExpDeriv
import Mathlib.Analysis.Calculus.Deriv.Comp
import Mathlib.Analysis.Calculus.Deriv.Prod
import Mathlib.Analysis.Calculus.Deriv.Inv
import Mathlib.Analysis.Calculus.Deriv.Mul
import Mathlib.Analysis.Calculus.Deriv.Add
import Mathlib.Tactic.Ring
import Mathlib.Tactic.Linarith
import Mathlib.Tactic.FieldSimp
import Mathlib.Tactic.NormNum
import Mathlib.Tactic.Positivity
import Mathlib.Tactic.FinCases

/-!
# Mixing boundaries, phase boundary brackets, wet bulb, extrema of envelopes (`thermo/flash/flash_utils.py` 4547-5459)

C96. Flashes are data: a check is a function of what is varied. The value of the iteration variable of a result is the value it was
flashed at.
-/

namespace Verif.FlashMixing

/-! ## Removal of one mixture from another (4547-4579) -/

open Classical in
/-- Lines 4556-4561. -/
noncomputable def larger (v : ℝ) : Option ℝ → Option ℝ
  | none => some v
  | some f => if v > f then some v else some f

open Classical in
/-- The second loop (4553-4561); an entry is the amount existing and the amount added. -/
noncomputable def factorLoop : List (ℝ × ℝ) → Option ℝ → Option ℝ
  | [], f => f
  | q :: qs, f => factorLoop qs (if q.2 > 0 then larger (-q.1 / q.2) f else f)

open Classical in
/-- `flash_mixing_minimum_factor`. -/
noncomputable def minimumFactor (l : List (ℝ × ℝ)) : ℝ :=
  if ∃ q ∈ l, q.2 > 0 ∧ q.1 = 0 then 0 else (factorLoop l none).getD 0

theorem factorLoop_spec (l : List (ℝ × ℝ)) (f : Option ℝ) :
    (factorLoop l f = none ↔ f = none ∧ ∀ q ∈ l, ¬ q.2 > 0)
      ∧ ∀ r, factorLoop l f = some r → (∀ q ∈ l, q.2 > 0 → -q.1 / q.2 ≤ r) ∧ (∀ x, f = some x → x ≤ r)
        ∧ (f = some r ∨ ∃ q ∈ l, q.2 > 0 ∧ r = -q.1 / q.2) := by
  induction l generalizing f with
  | nil =>
    refine ⟨by simp [factorLoop], fun r hr => ?_⟩
    simp only [factorLoop] at hr
    refine ⟨by simp, fun x hx => ?_, Or.inl hr⟩
    rw [hx, Option.some.injEq] at hr
    exact hr.le
  | cons a as ih =>
    rw [factorLoop]
    by_cases ha : a.2 > 0
    · rw [if_pos ha]
      cases f with
      | none =>
        rw [larger]
        obtain ⟨h1, h2⟩ := ih (some (-a.1 / a.2))
        refine ⟨?_, fun r hr => ?_⟩
        · rw [h1]
          constructor
          · rintro ⟨h, _⟩; simp at h
          · rintro ⟨_, h⟩; exact absurd ha (h a (by simp))
        · obtain ⟨g1, g2, g3⟩ := h2 r hr
          refine ⟨fun q hq hq2 => ?_, by simp, Or.inr ?_⟩
          · rcases List.mem_cons.1 hq with e | e
            · rw [e]; exact g2 _ rfl
            · exact g1 q e hq2
          · rcases g3 with g3 | ⟨q, hq, hq2, e⟩
            · rw [Option.some.injEq] at g3
              exact ⟨a, by simp, ha, g3.symm⟩
            · exact ⟨q, by simp [hq], hq2, e⟩
      | some x =>
        rw [larger]
        by_cases hx : -a.1 / a.2 > x
        · rw [if_pos hx]
          obtain ⟨h1, h2⟩ := ih (some (-a.1 / a.2))
          refine ⟨?_, fun r hr => ?_⟩
          · rw [h1]; simp
          · obtain ⟨g1, g2, g3⟩ := h2 r hr
            refine ⟨fun q hq hq2 => ?_, fun y hy => ?_, Or.inr ?_⟩
            · rcases List.mem_cons.1 hq with e | e
              · rw [e]; exact g2 _ rfl
              · exact g1 q e hq2
            · rw [Option.some.injEq] at hy
              rw [← hy]; exact hx.le.trans (g2 _ rfl)
            · rcases g3 with g3 | ⟨q, hq, hq2, e⟩
              · rw [Option.some.injEq] at g3
                exact ⟨a, by simp, ha, g3.symm⟩
              · exact ⟨q, by simp [hq], hq2, e⟩
        · rw [if_neg hx]
          obtain ⟨h1, h2⟩ := ih (some x)
          refine ⟨?_, fun r hr => ?_⟩
          · rw [h1]; simp
          · obtain ⟨g1, g2, g3⟩ := h2 r hr
            refine ⟨fun q hq hq2 => ?_, g2, ?_⟩
            · rcases List.mem_cons.1 hq with e | e
              · rw [e]; exact (not_lt.1 hx).trans (g2 _ rfl)
              · exact g1 q e hq2
            · rcases g3 with g3 | ⟨q, hq, hq2, e⟩
              · exact Or.inl g3
              · exact Or.inr ⟨q, by simp [hq], hq2, e⟩
    · rw [if_neg ha]
      obtain ⟨h1, h2⟩ := ih f
      refine ⟨?_, fun r hr => ?_⟩
      · rw [h1]
        constructor
        · rintro ⟨h, h'⟩
          refine ⟨h, fun q hq => ?_⟩
          rcases List.mem_cons.1 hq with e | e
          · rw [e]; exact ha
          · exact h' q e
        · rintro ⟨h, h'⟩; exact ⟨h, fun q hq => h' q (by simp [hq])⟩
      · obtain ⟨g1, g2, g3⟩ := h2 r hr
        refine ⟨fun q hq hq2 => ?_, g2, ?_⟩
        · rcases List.mem_cons.1 hq with e | e
          · rw [e] at hq2; exact absurd hq2 ha
          · exact g1 q e hq2
        · rcases g3 with g3 | ⟨q, hq, hq2, e⟩
          · exact Or.inl g3
          · exact Or.inr ⟨q, by simp [hq], hq2, e⟩

/-- **C96.** As much as possible of the mixture added is taken out of the existing one: no amount becomes negative, an amount of
something added becomes zero, and with any smaller factor an amount would be negative. -/
theorem C96_overlap (l : List (ℝ × ℝ)) (h : ∀ q ∈ l, 0 ≤ q.1 ∧ 0 ≤ q.2) :
    minimumFactor l ≤ 0 ∧ (∀ q ∈ l, 0 ≤ q.1 + minimumFactor l * q.2)
      ∧ ((∃ q ∈ l, 0 < q.2) → (∃ q ∈ l, 0 < q.2 ∧ q.1 + minimumFactor l * q.2 = 0)
        ∧ ∀ g, g < minimumFactor l → ∃ q ∈ l, q.1 + g * q.2 < 0) := by
  unfold minimumFactor
  by_cases h0 : ∃ q ∈ l, q.2 > 0 ∧ q.1 = 0
  · rw [if_pos h0]
    obtain ⟨q, hq, hq2, hq1⟩ := h0
    refine ⟨le_rfl, fun p hp => by simpa using (h p hp).1, fun _ => ⟨⟨q, hq, hq2, by simpa using hq1⟩, fun g hg => ⟨q, hq, ?_⟩⟩⟩
    rw [hq1]
    nlinarith
  · rw [if_neg h0]
    obtain ⟨s1, s2⟩ := factorLoop_spec l none
    cases hf : factorLoop l none with
    | none =>
      have hn := (s1.1 hf).2
      simp only [Option.getD_none]
      refine ⟨le_rfl, fun p hp => by simpa using (h p hp).1, ?_⟩
      rintro ⟨q, hq, hq2⟩
      exact absurd hq2 (hn q hq)
    | some r =>
      obtain ⟨g1, _, g3⟩ := s2 r hf
      simp only [Option.getD_some]
      rcases g3 with g3 | ⟨q, hq, hq2, e⟩
      · simp at g3
      · have hr : r ≤ 0 := by
          rw [e]
          exact div_nonpos_of_nonpos_of_nonneg (by linarith [(h q hq).1]) hq2.le
        refine ⟨hr, fun p hp => ?_, fun _ => ⟨⟨q, hq, hq2, ?_⟩, fun g hg => ⟨q, hq, ?_⟩⟩⟩
        · rcases (h p hp).2.lt_or_eq with hp2 | hp2
          · have := g1 p hp hp2
            rw [div_le_iff₀ hp2] at this
            linarith
          · rw [← hp2]; simpa using (h p hp).1
        · rw [e, div_mul_cancel₀ _ hq2.ne']; ring
        · have : g * q.2 < -q.1 := by
            rw [e, lt_div_iff₀ hq2] at hg
            exact hg
          linarith

/-- Humid air from which water is taken. -/
example : minimumFactor [(79 / 100, 0), (20 / 100, 0), (1 / 100, 1)] = -1 / 100 := by
  unfold minimumFactor
  rw [if_neg (by
    rintro ⟨q, hq, h2, h1⟩
    simp only [List.mem_cons, List.not_mem_nil, or_false] at hq
    rcases hq with e | e | e <;> subst e <;> (first | (norm_num at h1; done) | (norm_num at h2; done)))]
  rw [factorLoop, if_neg (by norm_num), factorLoop, if_neg (by norm_num), factorLoop, if_pos (by norm_num), larger, factorLoop]
  norm_num

/-- Amounts after removal (4577). -/
noncomputable def removed (l : List (ℝ × ℝ)) : List ℝ := l.map fun q => q.1 + minimumFactor l * q.2

/-- `normalize`; the sum must not be zero. -/
noncomputable def normalize (l : List ℝ) : List ℝ := l.map (· / l.sum)

theorem sum_map_div (l : List ℝ) (c : ℝ) : (l.map (· / c)).sum = l.sum / c := by
  induction l with
  | nil => simp
  | cons a as ih => simp [ih, add_div]

/-- **C96.** The composition after removal has no negative fractions and sums to one, unless nothing is left. -/
theorem C96_removed_partial (l : List (ℝ × ℝ)) (h : ∀ q ∈ l, 0 ≤ q.1 ∧ 0 ≤ q.2) (hs : (removed l).sum ≠ 0) :
    (normalize (removed l)).sum = 1 ∧ ∀ z ∈ normalize (removed l), 0 ≤ z := by
  constructor
  · unfold normalize; rw [sum_map_div, div_self hs]
  · intro z hz
    have hn : ∀ v ∈ removed l, 0 ≤ v := by
      intro v hv
      simp only [removed, List.mem_map] at hv
      obtain ⟨q, hq, e⟩ := hv
      rw [← e]; exact (C96_overlap l h).2.1 q hq
    simp only [normalize, List.mem_map] at hz
    obtain ⟨v, hv, e⟩ := hz
    rw [← e]
    exact div_nonneg (hn v hv) (List.sum_nonneg hn)

/-- Nothing added: nothing is removed. -/
example : (removed [(1 / 2, 0), (1 / 2, 0)]).sum = 1 := by
  have hf : minimumFactor [((1 / 2 : ℝ), (0 : ℝ)), (1 / 2, 0)] = 0 := by
    unfold minimumFactor
    rw [if_neg (by simp), factorLoop, if_neg (by norm_num), factorLoop, if_neg (by norm_num), factorLoop]
    rfl
  simp [removed]
  norm_num

/-- **C96 fails.** A mixture taken out of itself leaves nothing, and normalization divides by zero: the boundary of mixing something with
itself is an exception. -/
theorem C96_removed_fails : ∃ l : List (ℝ × ℝ), (∀ q ∈ l, 0 ≤ q.1 ∧ 0 ≤ q.2) ∧ (l.map Prod.fst).sum = 1 ∧ (l.map Prod.snd).sum = 1
    ∧ (removed l).sum = 0 := by
  have hf : minimumFactor [((1 : ℝ), (1 : ℝ)), (0, 0)] = -1 := by
    unfold minimumFactor
    rw [if_neg (by
      rintro ⟨q, hq, h2, h1⟩
      simp only [List.mem_cons, List.not_mem_nil, or_false] at hq
      rcases hq with e | e <;> subst e <;> (first | (norm_num at h1; done) | (norm_num at h2; done)))]
    rw [factorLoop, if_pos (by norm_num), larger, factorLoop, if_neg (by norm_num), factorLoop]
    norm_num
  refine ⟨[(1, 1), (0, 0)], ?_, by norm_num, by norm_num, ?_⟩
  · intro q hq
    simp only [List.mem_cons, List.not_mem_nil, or_false] at hq
    rcases hq with e | e <;> subst e <;> norm_num
  · simp [removed, hf]

/-- **C96.** Amounts may be scaled before normalization, as with `n_factor` (5257-5259). -/
theorem C96_scaled (l : List ℝ) (c : ℝ) (hc : c ≠ 0) : normalize (l.map (c * ·)) = normalize l := by
  unfold normalize
  have hsum : (l.map (c * ·)).sum = c * l.sum := by
    induction l with
    | nil => simp
    | cons a as ih => simp only [List.map_cons, List.sum_cons, ih]; ring
  rw [hsum, List.map_map]
  refine List.map_congr_left fun x _ => ?_
  simp only [Function.comp]
  rw [mul_div_mul_left _ _ hc]

/-! ## Brackets of the amount added (4978-5016) -/

/-- One evaluation. -/
def record (status : ℝ → ℤ) (b : Option ℝ × Option ℝ) (x : ℝ) : Option ℝ × Option ℝ :=
  if status x = -1 then (some x, b.2) else if status x = 1 then (b.1, some x) else b

/-- The loop (5006-5015). -/
def bracketLoop (status : ℝ → ℤ) : List ℝ → Option ℝ × Option ℝ → Option (ℝ × ℝ)
  | xs, (some a, some b) => some (a, b)
  | [], _ => none
  | x :: xs, b => bracketLoop status xs (record status b x)

/-- `generate_incipient_phase_boundaries_naive`: amounts without and with the phase. -/
def bracket (status : ℝ → ℤ) (factors : List ℝ) : Option (ℝ × ℝ) :=
  bracketLoop status factors (record status (record status (none, none) 0) 1)

def Ok (status : ℝ → ℤ) (b : Option ℝ × Option ℝ) : Prop := (∀ x, b.1 = some x → status x = -1) ∧ ∀ x, b.2 = some x → status x = 1

theorem record_ok (status : ℝ → ℤ) (b : Option ℝ × Option ℝ) (x : ℝ) (h : Ok status b) : Ok status (record status b x) := by
  unfold record
  split_ifs with h1 h2
  · exact ⟨fun y hy => by rw [Option.some.injEq] at hy; rw [← hy]; exact h1, h.2⟩
  · exact ⟨h.1, fun y hy => by rw [Option.some.injEq] at hy; rw [← hy]; exact h2⟩
  · exact h

theorem bracketLoop_ok (status : ℝ → ℤ) (xs : List ℝ) (b : Option ℝ × Option ℝ) (h : Ok status b) (r : ℝ × ℝ)
    (hr : bracketLoop status xs b = some r) : status r.1 = -1 ∧ status r.2 = 1 := by
  induction xs generalizing b with
  | nil =>
    obtain ⟨b1, b2⟩ := b
    cases b1 with
    | none => simp [bracketLoop] at hr
    | some a =>
      cases b2 with
      | none => simp [bracketLoop] at hr
      | some c =>
        simp only [bracketLoop, Option.some.injEq] at hr
        rw [← hr]; exact ⟨h.1 a rfl, h.2 c rfl⟩
  | cons x xs ih =>
    obtain ⟨b1, b2⟩ := b
    cases b1 with
    | none => rw [bracketLoop] at hr; · exact ih _ (record_ok status _ x h) hr
              · simp
    | some a =>
      cases b2 with
      | none => rw [bracketLoop] at hr; · exact ih _ (record_ok status _ x h) hr
                · simp
      | some c =>
        simp only [bracketLoop, Option.some.injEq] at hr
        rw [← hr]; exact ⟨h.1 a rfl, h.2 c rfl⟩

/-- **C96.** A bracket consists of an amount without and one with the phase. -/
theorem C96_bracket (status : ℝ → ℤ) (factors : List ℝ) (r : ℝ × ℝ) (h : bracket status factors = some r) :
    status r.1 = -1 ∧ status r.2 = 1 :=
  bracketLoop_ok status factors _ (record_ok _ _ _ (record_ok _ _ _ ⟨by simp, by simp⟩)) r h

theorem record_mono (status : ℝ → ℤ) (b : Option ℝ × Option ℝ) (x : ℝ) :
    (b.1.isSome → (record status b x).1.isSome) ∧ (b.2.isSome → (record status b x).2.isSome)
      ∧ (status x = -1 → (record status b x).1.isSome) ∧ (status x = 1 → (record status b x).2.isSome) := by
  unfold record
  split_ifs with h1 h2
  · refine ⟨by simp, by simp, by simp, fun h => ?_⟩
    rw [h1] at h; norm_num at h
  · refine ⟨by simp, by simp, fun h => absurd h h1, by simp⟩
  · exact ⟨id, id, fun h => absurd h h1, fun h => absurd h h2⟩

theorem bracketLoop_none (status : ℝ → ℤ) (xs : List ℝ) (b : Option ℝ × Option ℝ) (h : bracketLoop status xs b = none) :
    ¬ ((b.1.isSome ∨ ∃ x ∈ xs, status x = -1) ∧ (b.2.isSome ∨ ∃ x ∈ xs, status x = 1)) := by
  induction xs generalizing b with
  | nil =>
    obtain ⟨b1, b2⟩ := b
    cases b1 <;> cases b2 <;> simp_all [bracketLoop]
  | cons x xs ih =>
    have hb : ¬ (b.1.isSome ∧ b.2.isSome) := by
      obtain ⟨b1, b2⟩ := b
      cases b1 <;> cases b2 <;> simp_all [bracketLoop]
    have hstep : bracketLoop status xs (record status b x) = none := by
      obtain ⟨b1, b2⟩ := b
      cases b1 with
      | none => rw [bracketLoop] at h; · exact h
                · simp
      | some a =>
        cases b2 with
        | none => rw [bracketLoop] at h; · exact h
                  · simp
        | some c => simp at hb
    have := ih _ hstep
    obtain ⟨m1, m2, m3, m4⟩ := record_mono status b x
    rintro ⟨p1, p2⟩
    apply this
    constructor
    · rcases p1 with p1 | ⟨y, hy, hy'⟩
      · exact Or.inl (m1 p1)
      · rcases List.mem_cons.1 hy with e | e
        · rw [e] at hy'; exact Or.inl (m3 hy')
        · exact Or.inr ⟨y, e, hy'⟩
    · rcases p2 with p2 | ⟨y, hy, hy'⟩
      · exact Or.inl (m2 p2)
      · rcases List.mem_cons.1 hy with e | e
        · rw [e] at hy'; exact Or.inl (m4 hy')
        · exact Or.inr ⟨y, e, hy'⟩

/-- **C96.** If there is no bracket, the amounts tried are not both without and with the phase. -/
theorem C96_bracket_none (status : ℝ → ℤ) (factors : List ℝ) (h : bracket status factors = none) (x y : ℝ) (hx : x ∈ 0 :: 1 :: factors)
    (hy : y ∈ 0 :: 1 :: factors) : ¬ (status x = -1 ∧ status y = 1) := by
  have hn := bracketLoop_none status factors _ h
  rintro ⟨h1, h2⟩
  apply hn
  obtain ⟨_, _, z3, z4⟩ := record_mono status (none, none) 0
  obtain ⟨o1, o2, o3, o4⟩ := record_mono status (record status (none, none) 0) 1
  simp only [List.mem_cons] at hx hy
  constructor
  · rcases hx with e | e | e
    · rw [e] at h1; exact Or.inl (o1 (z3 h1))
    · rw [e] at h1; exact Or.inl (o3 h1)
    · exact Or.inr ⟨x, e, h1⟩
  · rcases hy with e | e | e
    · rw [e] at h2; exact Or.inl (o2 (z4 h2))
    · rw [e] at h2; exact Or.inl (o4 h2)
    · exact Or.inr ⟨y, e, h2⟩

/-- Phase present from 0.3 on. -/
example : bracket (fun x => if x < 3 / 10 then -1 else 1) [1 / 4] = some (0, 1) := by
  simp only [bracket, record]
  norm_num [bracketLoop]

/-! ### What is returned after the search (5054-5058, 5139-5143, 5194-5198, 5241-5245) -/

/-- The last result stored for which the check is met; if there is none, the first. -/
def lastMatching {α : Type} (ok : α → Bool) (l : List α) : Option α := (l.reverse.find? ok).or l.head?

/-- **C96.** If the check is met by a result stored, it is met by what is returned. -/
theorem C96_last {α : Type} (ok : α → Bool) (l : List α) (h : ∃ v ∈ l, ok v = true) : ∃ v, lastMatching ok l = some v ∧ v ∈ l ∧ ok v = true := by
  unfold lastMatching
  cases hf : l.reverse.find? ok with
  | none =>
    rw [List.find?_eq_none] at hf
    obtain ⟨v, hv, hv'⟩ := h
    exact absurd hv' (hf v (List.mem_reverse.2 hv))
  | some v => exact ⟨v, rfl, List.mem_reverse.1 (List.mem_of_find?_eq_some hf), List.find?_some hf⟩

example : lastMatching (fun n : ℕ => n < 3) [5, 1, 2, 7] = some 2 := rfl

/-- **C96 fails.** Otherwise the result of the first evaluation is returned without error, although the phase asked for is not there. -/
theorem C96_last_fails {α : Type} (ok : α → Bool) (x : α) (xs : List α) (h : ∀ v ∈ x :: xs, ok v = false) :
    lastMatching ok (x :: xs) = some x := by
  unfold lastMatching
  have : (x :: xs).reverse.find? ok = none := by
    rw [List.find?_eq_none]
    intro v hv
    rw [h v (List.mem_reverse.1 hv)]
    simp
  rw [this]
  rfl

/-! ### The fraction followed (5084-5098) -/

/-- Compositions flashed and the vapor fraction there. -/
structure Point where
  zs : ℕ
  VF : ℝ

open Classical in
/-- `start` for vapor-liquid boundaries if nothing was removed; `fresh` is a new flash at the existing composition. -/
noncomputable def startOf (neg pos : Point) (orig : ℕ) (fresh : Point) : Point :=
  if neg.zs = orig then neg else if pos.zs = orig then neg else fresh

/-- Whether the liquid fraction is followed. -/
def followsLF (p : Point) : Prop := p.VF > 1 / 2

/-- **C96.** If the existing mixture is not the one with the phase, the fraction to follow is chosen from a flash of the existing mixture. -/
theorem C96_follow_partial (neg pos fresh : Point) (orig : ℕ) (h : pos.zs ≠ orig) (hf : fresh.zs = orig) :
    (startOf neg pos orig fresh).zs = orig := by
  unfold startOf
  split_ifs with h1
  · exact h1
  · exact hf

/-- **C96 fails.** If it is, the fraction is chosen from the mixture without the phase: the liquid fraction is followed although the
existing mixture is mostly liquid. -/
theorem C96_follow_fails : ∃ (neg pos fresh : Point) (orig : ℕ), pos.zs = orig ∧ fresh = pos ∧ ¬ followsLF pos
    ∧ followsLF (startOf neg pos orig fresh) := by
  refine ⟨⟨1, 1⟩, ⟨0, 1 / 10⟩, ⟨0, 1 / 10⟩, 0, rfl, rfl, by unfold followsLF; norm_num, ?_⟩
  simp only [startOf, followsLF]
  norm_num

/-! ## Checks (4844-4917) -/

/-- Counts of a result and its fractions. -/
structure Result where
  gas : Bool
  (liquids solids : ℕ)
  (VF LF : ℝ)

/-- Number of phases. -/
def Result.phases (r : Result) : ℕ := (if r.gas then 1 else 0) + r.liquids + r.solids

/-- `VL_boolean_check`. -/
def checkVL (r : Result) : ℤ := if r.gas = true ∧ r.phases = 2 ∧ r.solids = 0 then 1 else -1
/-- `LL_boolean_check`. -/
def checkLL (r : Result) : ℤ := if r.phases = 2 ∧ r.liquids = 2 then 1 else -1
/-- `VLN_or_LN_boolean_check`. -/
def checkMulti (r : Result) : ℤ := if r.phases > 1 ∧ r.solids = 0 then 1 else -1
/-- `VLL_or_LL_boolean_check`. -/
def checkTwoLiquids (r : Result) : ℤ := if r.phases > 1 ∧ r.solids = 0 ∧ r.liquids = 2 then 1 else -1
/-- `VLL_boolean_check`. -/
def checkVLL (r : Result) : ℤ := if r.phases = 3 ∧ r.solids = 0 ∧ r.liquids = 2 then 1 else -1

open Classical in
/-- `VL_dew_boolean_check`. -/
noncomputable def checkDew (r : Result) : ℝ :=
  if r.gas = true ∧ r.phases = 2 ∧ r.solids = 0 then min r.LF r.VF
  else if r.gas = true ∧ r.phases = 1 then -1 else -10000

open Classical in
/-- `VLN_bubble_boolean_check`. -/
noncomputable def checkBubble (r : Result) : ℝ :=
  if r.gas = true ∧ r.phases ≥ 2 ∧ r.solids = 0 then min r.LF r.VF
  else if r.liquids = 1 ∧ r.phases = 1 then -1 else -10000

/-- **C96.** The checks are met by exactly the phases they name. -/
theorem C96_checks (r : Result) :
    (checkVL r = 1 ↔ r.gas = true ∧ r.liquids = 1 ∧ r.solids = 0)
      ∧ (checkLL r = 1 ↔ r.gas = false ∧ r.liquids = 2 ∧ r.solids = 0)
      ∧ (checkVLL r = 1 ↔ r.gas = true ∧ r.liquids = 2 ∧ r.solids = 0)
      ∧ (checkTwoLiquids r = 1 ↔ r.liquids = 2 ∧ r.solids = 0)
      ∧ (checkMulti r = 1 ↔ r.solids = 0 ∧ ((r.gas = true ∧ 1 ≤ r.liquids) ∨ 2 ≤ r.liquids)) := by
  have key : ∀ p : Prop, ∀ [Decidable p], ((if p then (1 : ℤ) else -1) = 1 ↔ p) := by
    intro p _
    by_cases h : p <;> simp [h]
  obtain ⟨g, l, s, v, f⟩ := r
  unfold checkVL checkLL checkVLL checkTwoLiquids checkMulti
  simp only [key, Result.phases]
  cases g <;> simp <;> omega

/-- **C96.** The checks for dew and bubble points are nonnegative with gas and liquid, minus one in the gas or liquid, and otherwise a
value that is neither. -/
theorem C96_point_checks (r : Result) (h0 : 0 ≤ r.VF) (h1 : 0 ≤ r.LF) :
    (0 ≤ checkDew r ↔ r.gas = true ∧ r.liquids = 1 ∧ r.solids = 0) ∧ (checkDew r = -1 ↔ r.gas = true ∧ r.liquids = 0 ∧ r.solids = 0)
      ∧ (0 ≤ checkBubble r ↔ r.gas = true ∧ 1 ≤ r.liquids ∧ r.solids = 0)
      ∧ (checkBubble r = -1 ↔ r.gas = false ∧ r.liquids = 1 ∧ r.solids = 0) := by
  have hm : 0 ≤ min r.LF r.VF := le_min h1 h0
  have hm' : min r.LF r.VF ≠ -1 := by intro h; rw [h] at hm; norm_num at hm
  have hn : ¬ (0 : ℝ) ≤ -1 := by norm_num
  have hn' : ¬ (0 : ℝ) ≤ -10000 := by norm_num
  have hn2 : ¬ (-10000 : ℝ) = -1 := by norm_num
  have key : ∀ (A B : Prop) [Decidable A] [Decidable B], ¬ (A ∧ B) →
      ((0 ≤ (if A then min r.LF r.VF else if B then (-1 : ℝ) else -10000)) ↔ A)
        ∧ (((if A then min r.LF r.VF else if B then (-1 : ℝ) else -10000) = -1) ↔ B) := by
    intro A B _ _ hAB
    by_cases hA : A
    · have hB : ¬ B := fun hB => hAB ⟨hA, hB⟩
      simp only [hA, hB, hm, hm', if_true]
      exact ⟨trivial, trivial⟩
    · by_cases hB : B
      · simp only [hA, hB, hn, if_true, if_false]
        exact ⟨trivial, trivial⟩
      · simp only [hA, hB, hn', hn2, if_false]
        exact ⟨trivial, trivial⟩
  have hph : r.phases = (if r.gas then 1 else 0) + r.liquids + r.solids := rfl
  obtain ⟨a1, a2⟩ := key (r.gas = true ∧ r.phases = 2 ∧ r.solids = 0) (r.gas = true ∧ r.phases = 1) (by omega)
  obtain ⟨b1, b2⟩ := key (r.gas = true ∧ r.phases ≥ 2 ∧ r.solids = 0) (r.liquids = 1 ∧ r.phases = 1) (by omega)
  refine ⟨a1.trans ?_, a2.trans ?_, b1.trans ?_, b2.trans ?_⟩ <;> rw [hph] <;> cases r.gas <;> simp <;> omega

example : checkVLL ⟨true, 2, 0, 1 / 3, 2 / 3⟩ = 1 ∧ checkVL ⟨true, 2, 0, 1 / 3, 2 / 3⟩ = -1 := by
  simp [checkVLL, checkVL, Result.phases]

/-! ### A phase rich in one component (4827-4842) -/

/-- A phase: fraction, mole fraction and mass fraction of the component. -/
structure RichPhase where
  (beta z w : ℝ)

open Classical in
/-- `component_check`. -/
noncomputable def richCheck (reqZ reqW : Option ℝ) : List RichPhase → ℝ
  | [] => -1
  | p :: ps =>
    match reqZ, reqW with
    | some z, _ => if p.z > z then p.beta else richCheck reqZ reqW ps
    | none, some w => if p.w > w then p.beta else richCheck reqZ reqW ps
    | none, none => richCheck reqZ reqW ps

/-- `generate_pure_phase_boolean_check` with `required_wi` only: `required_zi` keeps its default. -/
noncomputable def richByMass (w : ℝ) : List RichPhase → ℝ := richCheck (some (999 / 1000)) (some w)

/-- **C96.** With a mole fraction required the fraction of a phase with a higher one is returned, or minus one if there is none. -/
theorem C96_rich (z : ℝ) (reqW : Option ℝ) (ps : List RichPhase) :
    (∃ p ∈ ps, p.z > z ∧ richCheck (some z) reqW ps = p.beta) ∨ ((∀ p ∈ ps, p.z ≤ z) ∧ richCheck (some z) reqW ps = -1) := by
  induction ps with
  | nil => right; simp [richCheck]
  | cons p ps ih =>
    unfold richCheck
    dsimp only
    by_cases h : p.z > z
    · rw [if_pos h]; left; exact ⟨p, by simp, h, rfl⟩
    · rw [if_neg h]
      rcases ih with ⟨q, hq, h1, h2⟩ | ⟨h1, h2⟩
      · left; exact ⟨q, by simp [hq], h1, h2⟩
      · right
        refine ⟨fun q hq => ?_, h2⟩
        rcases List.mem_cons.1 hq with e | e
        · rw [e]; exact not_lt.1 h
        · exact h1 q e

/-- **C96 fails.** With only a mass fraction required it is ignored: a phase with a mass fraction above it is not found. -/
theorem C96_rich_fails : ∃ (w : ℝ) (p : RichPhase), p.w > w ∧ 0 < p.beta ∧ richByMass w [p] = -1 := by
  refine ⟨9 / 10, ⟨1 / 2, 99 / 100, 95 / 100⟩, by norm_num, by norm_num, ?_⟩
  simp only [richByMass, richCheck]
  norm_num

/-! ## Brackets of phase boundaries (4590-4751) -/

/-- Lines 4648, 4655. -/
def isNon (nonIntegral : Bool) (c : ℝ) : Prop := if nonIntegral then c ≤ 0 else c = -1
@[inherit_doc isNon] def isPhase (nonIntegral : Bool) (c : ℝ) : Prop := if nonIntegral then c > 0 else c ≥ 0

/-- The side on which the phase vanishes (4699): above if the check falls, below if it rises. -/
def side (ignoreDer rising : Bool) (x phase : ℝ) : Prop :=
  ignoreDer = true ∨ (rising = false ∧ x > phase) ∨ (rising = true ∧ x < phase)

open Classical in
/-- The loop (4692-4703), with the best value and distance. -/
noncomputable def nearest (ignoreDer rising : Bool) (phase : ℝ) : List ℝ → Option ℝ × ℝ → Option ℝ × ℝ
  | [], b => b
  | x :: xs, b =>
    nearest ignoreDer rising phase xs
      (if side ignoreDer rising x phase then (if |x - phase| < b.2 then (some x, |x - phase|) else b) else b)

theorem nearest_spec (ig ri : Bool) (p : ℝ) (xs : List ℝ) (b : Option ℝ × ℝ) :
    (nearest ig ri p xs b).2 ≤ b.2 ∧ (∀ x ∈ xs, side ig ri x p → (nearest ig ri p xs b).2 ≤ |x - p|)
      ∧ (nearest ig ri p xs b = b ∨ ∃ x ∈ xs, side ig ri x p ∧ nearest ig ri p xs b = (some x, |x - p|)) := by
  induction xs generalizing b with
  | nil => simp [nearest]
  | cons a as ih =>
    rw [nearest]
    by_cases hs : side ig ri a p
    · rw [if_pos hs]
      by_cases hd : |a - p| < b.2
      · rw [if_pos hd]
        obtain ⟨h1, h2, h3⟩ := ih (some a, |a - p|)
        refine ⟨h1.trans hd.le, fun x hx hx' => ?_, Or.inr ?_⟩
        · rcases List.mem_cons.1 hx with e | e
          · rw [e]; exact h1
          · exact h2 x e hx'
        · rcases h3 with h3 | ⟨x, hx, hx', h3⟩
          · exact ⟨a, by simp, hs, h3⟩
          · exact ⟨x, by simp [hx], hx', h3⟩
      · rw [if_neg hd]
        obtain ⟨h1, h2, h3⟩ := ih b
        refine ⟨h1, fun x hx hx' => ?_, ?_⟩
        · rcases List.mem_cons.1 hx with e | e
          · rw [e]; exact h1.trans (not_lt.1 hd)
          · exact h2 x e hx'
        · rcases h3 with h3 | ⟨x, hx, hx', h3⟩
          · exact Or.inl h3
          · exact Or.inr ⟨x, by simp [hx], hx', h3⟩
    · rw [if_neg hs]
      obtain ⟨h1, h2, h3⟩ := ih b
      refine ⟨h1, fun x hx hx' => ?_, ?_⟩
      · rcases List.mem_cons.1 hx with e | e
        · rw [e] at hx'; exact absurd hx' hs
        · exact h2 x e hx'
      · rcases h3 with h3 | ⟨x, hx, hx', h3⟩
        · exact Or.inl h3
        · exact Or.inr ⟨x, by simp [hx], hx', h3⟩

/-- **C96.** Of the values without the phase the nearest on the side where it vanishes is used. -/
theorem C96_nearest (ig ri : Bool) (p : ℝ) (xs : List ℝ) (r : ℝ) (h : (nearest ig ri p xs (none, 10 ^ 100)).1 = some r) :
    r ∈ xs ∧ side ig ri r p ∧ ∀ x ∈ xs, side ig ri x p → |r - p| ≤ |x - p| := by
  obtain ⟨_, h2, h3⟩ := nearest_spec ig ri p xs (none, 10 ^ 100)
  rcases h3 with h3 | ⟨x, hx, hx', h3⟩
  · rw [h3] at h; simp at h
  · rw [h3] at h h2
    simp only [Option.some.injEq] at h
    subst h
    exact ⟨hx, hx', h2⟩

example : (nearest false true 300 [400, 200, 250] (none, 10 ^ 100)).1 = some 250 := by
  have a1 : ¬ side false true 400 300 := by simp [side]; norm_num
  have a2 : side false true 200 300 := by simp [side]; norm_num
  have a3 : side false true 250 300 := by simp [side]; norm_num
  rw [nearest, if_neg a1, nearest, if_pos a2, if_pos (by norm_num [abs_of_neg]), nearest, if_pos a3, if_pos (by norm_num [abs_of_neg]), nearest]

open Classical in
/-- Values without the phase after a guess (4648-4652). -/
noncomputable def updNons (nonIntegral : Bool) (x c : ℝ) (ns : List ℝ) : List ℝ := if isNon nonIntegral c then ns ++ [x] else ns

open Classical in
/-- The value with the phase after a guess (4655-4672); see `keepPhase` for another such value. -/
noncomputable def updPhase (nonIntegral : Bool) (x c : ℝ) (p : Option ℝ) : Option ℝ :=
  if isNon nonIntegral c then p else if isPhase nonIntegral c then p.or (some x) else p

/-- The bracket sought after each guess (4690-4706). -/
noncomputable def attempt (ignoreDer : Bool) (rising : ℝ → Bool) (ns : List ℝ) : Option ℝ → Option (ℝ × ℝ)
  | none => none
  | some y => (nearest ignoreDer (rising y) y ns (none, 10 ^ 100)).1.map fun b => (b, y)

/-- The loop over guesses (4638-4706): `check` is `none` for a failed flash, `rising` is from the perturbation. Returns the values without
and with the phase. -/
noncomputable def scan (nonIntegral ignoreDer : Bool) (check : ℝ → Option ℝ) (rising : ℝ → Bool) :
    List ℝ → List ℝ → Option ℝ → Option (ℝ × ℝ)
  | [], _, _ => none
  | x :: xs, ns, p =>
    match check x with
    | none => scan nonIntegral ignoreDer check rising xs ns p
    | some c =>
      (attempt (ignoreDer || nonIntegral) rising (updNons nonIntegral x c ns) (updPhase nonIntegral x c p)).or
        (scan nonIntegral ignoreDer check rising xs (updNons nonIntegral x c ns) (updPhase nonIntegral x c p))

/-- **C96.** A bracket found while trying guesses has a value without and one with the phase, on the side where the phase vanishes. -/
theorem C96_scan (ni ig : Bool) (check : ℝ → Option ℝ) (rising : ℝ → Bool) (xs ns : List ℝ) (p : Option ℝ)
    (hn : ∀ x ∈ ns, ∃ c, check x = some c ∧ isNon ni c) (hp : ∀ x, p = some x → ∃ c, check x = some c ∧ isPhase ni c) (r : ℝ × ℝ)
    (h : scan ni ig check rising xs ns p = some r) :
    (∃ c, check r.1 = some c ∧ isNon ni c) ∧ (∃ c, check r.2 = some c ∧ isPhase ni c) ∧ side (ig || ni) (rising r.2) r.1 r.2 := by
  induction xs generalizing ns p with
  | nil => simp [scan] at h
  | cons x xs ih =>
    unfold scan at h
    cases hc : check x with
    | none =>
      rw [hc] at h
      exact ih ns p hn hp h
    | some c =>
      rw [hc] at h
      dsimp only at h
      have hn' : ∀ y ∈ updNons ni x c ns, ∃ c, check y = some c ∧ isNon ni c := by
        intro y hy
        unfold updNons at hy
        by_cases hN : isNon ni c
        · rw [if_pos hN] at hy
          rcases List.mem_append.1 hy with e | e
          · exact hn y e
          · simp only [List.mem_cons, List.not_mem_nil, or_false] at e
            rw [e]; exact ⟨c, hc, hN⟩
        · rw [if_neg hN] at hy; exact hn y hy
      have hp' : ∀ y, updPhase ni x c p = some y → ∃ c, check y = some c ∧ isPhase ni c := by
        intro y hy
        unfold updPhase at hy
        by_cases hN : isNon ni c
        · rw [if_pos hN] at hy; exact hp y hy
        · rw [if_neg hN] at hy
          by_cases hP : isPhase ni c
          · rw [if_pos hP] at hy
            cases p with
            | none =>
              simp only [Option.none_or, Option.some.injEq] at hy
              rw [← hy]; exact ⟨c, hc, hP⟩
            | some z => exact hp y hy
          · rw [if_neg hP] at hy; exact hp y hy
      cases ha : attempt (ig || ni) rising (updNons ni x c ns) (updPhase ni x c p) with
      | none =>
        rw [ha, Option.none_or] at h
        exact ih _ _ hn' hp' h
      | some q =>
        rw [ha, Option.some_or, Option.some.injEq] at h
        subst h
        cases hq : updPhase ni x c p with
        | none => rw [hq] at ha; simp [attempt] at ha
        | some y =>
          rw [hq] at ha
          unfold attempt at ha
          rw [Option.map_eq_some_iff] at ha
          obtain ⟨b, hb, e⟩ := ha
          obtain ⟨h1, h2, _⟩ := C96_nearest _ _ _ _ _ hb
          rw [← e]
          exact ⟨hn' b h1, hp' y hq, h2⟩

/-- **C96.** Once a value with the phase is known, the first value without it on the side where the phase vanishes ends the search. -/
theorem C96_scan_first (ni ig : Bool) (check : ℝ → Option ℝ) (rising : ℝ → Bool) (ns : List ℝ) (y x : ℝ) (xs : List ℝ) (c : ℝ)
    (hc : check x = some c) (hN : isNon ni c) (hs : side (ig || ni) (rising y) x y) (hd : |x - y| < 10 ^ 100) :
    ∃ b, scan ni ig check rising (x :: xs) ns (some y) = some (b, y) := by
  unfold scan
  rw [hc]
  dsimp only
  have hp : updPhase ni x c (some y) = some y := by unfold updPhase; rw [if_pos hN]
  have hns : updNons ni x c ns = ns ++ [x] := by unfold updNons; rw [if_pos hN]
  rw [hp, hns]
  unfold attempt
  obtain ⟨_, h2, h3⟩ := nearest_spec (ig || ni) (rising y) y (ns ++ [x]) (none, 10 ^ 100)
  have hx := h2 x (by simp) hs
  rcases h3 with h3 | ⟨b, _, _, h3⟩
  · rw [h3] at hx
    exact absurd hd (not_lt.2 hx)
  · exact ⟨b, by dsimp only; rw [h3]; simp⟩

/-- **C96.** With and without the phase exclude each other, so the two values of a bracket differ. -/
theorem C96_scan_ne (ni ig : Bool) (check : ℝ → Option ℝ) (rising : ℝ → Bool) (xs : List ℝ) (r : ℝ × ℝ)
    (h : scan ni ig check rising xs [] none = some r) : r.1 ≠ r.2 := by
  obtain ⟨⟨c, hc, hN⟩, ⟨d, hd, hP⟩, _⟩ := C96_scan ni ig check rising xs [] none (by simp) (by simp) r h
  intro e
  rw [e, hd, Option.some.injEq] at hc
  subst hc
  unfold isNon isPhase at *
  cases ni
  · simp only [Bool.false_eq_true, if_false] at hN hP
    rw [hN] at hP; norm_num at hP
  · simp only [if_true] at hN hP
    linarith

/-- A check that is minus one below 250 and rises above. -/
example : scan false false (fun x => some (if x < 250 then -1 else (x - 250) / 1000)) (fun _ => true) [300, 400, 200] [] none = some (200, 300) := by
  have e1 : ¬ isNon false (((300 : ℝ) - 250) / 1000) := by simp [isNon]; norm_num
  have e2 : isPhase false (((300 : ℝ) - 250) / 1000) := by simp [isPhase]; norm_num
  have e3 : ¬ isNon false (((400 : ℝ) - 250) / 1000) := by simp [isNon]; norm_num
  have e4 : isPhase false (((400 : ℝ) - 250) / 1000) := by simp [isPhase]; norm_num
  have e5 : isNon false (-1) := by simp [isNon]
  have s : side (false || false) true 200 300 := by simp [side]; norm_num
  rw [scan]
  dsimp only
  rw [if_neg (show ¬ (300 : ℝ) < 250 by norm_num)]
  have u1 : updNons false 300 ((300 - 250) / 1000) [] = [] := by rw [updNons, if_neg e1]
  have v1 : updPhase false 300 ((300 - 250) / 1000) none = some 300 := by rw [updPhase, if_neg e1, if_pos e2]; rfl
  rw [u1, v1, attempt, nearest, Option.map_none, Option.none_or, scan]
  dsimp only
  rw [if_neg (show ¬ (400 : ℝ) < 250 by norm_num)]
  have u2 : updNons false 400 ((400 - 250) / 1000) [] = [] := by rw [updNons, if_neg e3]
  have v2 : updPhase false 400 ((400 - 250) / 1000) (some 300) = some 300 := by rw [updPhase, if_neg e3, if_pos e4]; rfl
  rw [u2, v2, attempt, nearest, Option.map_none, Option.none_or, scan]
  dsimp only
  rw [if_pos (show (200 : ℝ) < 250 by norm_num)]
  have u3 : updNons false 200 (-1) [] = [200] := by rw [updNons, if_pos e5]; rfl
  have v3 : updPhase false 200 (-1) (some 300) = some 300 := by rw [updPhase, if_pos e5]
  rw [u3, v3, attempt, nearest, if_pos s, if_pos (by norm_num [abs_of_neg]), nearest]
  rfl

open Classical in
/-- What happens to the value with the phase when another is found (4660-4672): the comparison is of the old check with itself. -/
noncomputable def keepPhase (old new : ℝ × ℝ) : ℝ × ℝ := if old.2 < old.2 then new else old

/-- **C96 fails.** A value with the phase that is nearer to the boundary never replaces the first. -/
theorem C96_keep_fails (old new : ℝ × ℝ) (_h : new.2 < old.2) : keepPhase old new = old := by
  unfold keepPhase; rw [if_neg (lt_irrefl _)]

open Classical in
/-- The inner loop after all guesses (4735-4745) for one value without the phase: values with the phase and whether the check rises
there; `first` is the first value with the phase, which is compared with instead. -/
noncomputable def finalInner (first non : ℝ) : List (ℝ × Bool) → Option ℝ × ℝ → Option ℝ × ℝ
  | [], b => b
  | q :: qs, b =>
    finalInner first non qs (if side false q.2 non first then (if |non - q.1| < b.2 then (some q.1, |non - q.1|) else b) else b)

/-- **C96.** With a single value with the phase the bracket is on the side where the phase vanishes. -/
theorem C96_final_partial (first non : ℝ) (rising : Bool) (r : ℝ)
    (h : (finalInner first non [(first, rising)] (none, 10 ^ 100)).1 = some r) : r = first ∧ side false rising non r := by
  rw [finalInner, finalInner] at h
  by_cases hs : side false rising non first
  · rw [if_pos hs] at h
    by_cases hd : |non - first| < 10 ^ 100
    · rw [if_pos hd, Option.some.injEq] at h
      rw [← h]; exact ⟨rfl, hs⟩
    · rw [if_neg hd] at h; simp at h
  · rw [if_neg hs] at h; simp at h

example : (finalInner 300 200 [(300, true)] (none, 10 ^ 100)).1 = some 300 := by
  rw [finalInner, if_pos (by simp [side]; norm_num), if_pos (by norm_num [abs_of_neg]), finalInner]

/-- **C96 fails.** With several the side is tested for the first but another is returned: the phase is found at 300 with rising and at 500
with falling check, and not at 400; returned are 400 and 500, although the phase vanishes above 500. -/
theorem C96_final_fails : (nearest false true 300 [400] (none, 10 ^ 100)).1 = none
    ∧ (finalInner 300 400 [(300, true), (500, false)] (none, 10 ^ 100)).1 = some 500 ∧ ¬ side false false 400 500 := by
  refine ⟨?_, ?_, ?_⟩
  · rw [nearest, if_neg (by simp [side]; norm_num), nearest]
  · rw [finalInner, if_neg (by simp [side]; norm_num), finalInner, if_pos (by simp [side]; norm_num),
      if_pos (by norm_num [abs_of_neg]), finalInner]
  · simp [side]; norm_num

/-! ## Wet bulb temperature of humid gas (5264-5426) -/

variable {n : ℕ}

/-- Composition after adding an amount of component `w` to one mole (5322-5324, 5398-5401). -/
noncomputable def addWater (w : Fin n) (zs : Fin n → ℝ) (m : ℝ) (i : Fin n) : ℝ :=
  (zs i + if i = w then m else 0) / ∑ j, (zs j + if j = w then m else 0)

theorem water_total (w : Fin n) (zs : Fin n → ℝ) (m : ℝ) (h : ∑ i, zs i = 1) : ∑ j, (zs j + if j = w then m else 0) = 1 + m := by
  rw [Finset.sum_add_distrib, h]
  simp

/-- The error (5321, 5332). -/
noncomputable def wetBulbErr (Hfeed Hwater m Hout : ℝ) : ℝ := (m * Hwater + Hfeed) / (1 + m) - Hout

/-- **C96.** At a zero of the error enthalpy is conserved when the amount of water found is evaporated into one mole of feed, and the
saturated gas is made up of feed and water. -/
theorem C96_wet_bulb (w : Fin n) (zs : Fin n → ℝ) (m Hfeed Hwater Hout : ℝ) (h : ∑ i, zs i = 1) (hm : 0 < 1 + m) :
    (wetBulbErr Hfeed Hwater m Hout = 0 ↔ (1 + m) * Hout = Hfeed + m * Hwater)
      ∧ (∀ i, (1 + m) * addWater w zs m i = zs i + if i = w then m else 0) ∧ ∑ i, addWater w zs m i = 1 := by
  refine ⟨?_, fun i => ?_, ?_⟩
  · unfold wetBulbErr
    rw [sub_eq_zero, div_eq_iff hm.ne']
    constructor <;> intro h <;> linarith
  · unfold addWater
    rw [water_total w zs m h, mul_div_cancel₀ _ hm.ne']
  · unfold addWater
    rw [← Finset.sum_div, water_total w zs m h, div_self hm.ne']

example : wetBulbErr 10 2 1 6 = 0 ∧ addWater (1 : Fin 2) ![1, 0] 1 1 = 1 / 2 := by
  constructor
  · unfold wetBulbErr; norm_num
  · simp [addWater, Fin.sum_univ_two]; norm_num

/-- Amount added for a guessed fraction of water (5364-5367). -/
noncomputable def nAdded (xf xo : ℝ) : ℝ := (1 - xf) / (1 - xo) - 1

/-- **C96.** In the nested solution the gas tested has the guessed fraction of water. -/
theorem C96_nested (w : Fin n) (zs : Fin n → ℝ) (xo : ℝ) (h : ∑ i, zs i = 1) (hf : zs w ≠ 1) (ho : xo ≠ 1) :
    addWater w zs (nAdded (zs w) xo) w = xo := by
  have h1 : 1 - xo ≠ 0 := sub_ne_zero.2 ho.symm
  have h2 : 1 - zs w ≠ 0 := sub_ne_zero.2 hf.symm
  unfold addWater
  rw [water_total w zs _ h, if_pos rfl]
  unfold nAdded
  rw [div_eq_iff (by
    rw [show 1 + ((1 - zs w) / (1 - xo) - 1) = (1 - zs w) / (1 - xo) by ring]
    exact div_ne_zero h2 h1)]
  field_simp
  ring

example : nAdded (1 / 100) (2 / 100) = 1 / 98 := by unfold nAdded; norm_num

/-- The unknown used and the fraction returned by the direct solution (5394, 5425). -/
noncomputable def directAmount (s : ℝ) : ℝ := |s|
@[inherit_doc directAmount] noncomputable def directResult (s : ℝ) : ℝ := s / (1 + s)

/-- **C96.** The direct solution returns the fraction of water of the gas whose wet bulb temperature was matched if the gas given is dry and
the unknown found is not negative. -/
theorem C96_direct_partial (w : Fin n) (zs : Fin n → ℝ) (s : ℝ) (h : ∑ i, zs i = 1) (hd : zs w = 0) (hs : 0 ≤ s) :
    directResult s = addWater w zs (directAmount s) w := by
  unfold directResult directAmount addWater
  rw [water_total w zs _ h, abs_of_nonneg hs, if_pos rfl, hd, zero_add]

example : directResult (1 / 99) = 1 / 100 ∧ addWater (1 : Fin 2) ![1, 0] (directAmount (1 / 99)) 1 = 1 / 100 := by
  constructor
  · unfold directResult; norm_num
  · simp [addWater, directAmount, Fin.sum_univ_two]; norm_num

/-- **C96 fails.** With water in the gas given the fraction returned is not that of the gas matched; and for a negative unknown, which
gives the same errors, a negative fraction is returned. -/
theorem C96_direct_fails :
    (∃ (zs : Fin 2 → ℝ) (s : ℝ), ∑ i, zs i = 1 ∧ (∀ i, 0 ≤ zs i) ∧ 0 < s ∧ directResult s ≠ addWater 1 zs (directAmount s) 1)
      ∧ ∃ s : ℝ, directAmount s = directAmount (-s) ∧ 0 < directAmount s ∧ directResult s < 0 := by
  refine ⟨⟨![1 / 2, 1 / 2], 1, by simp [Fin.sum_univ_two]; norm_num, ?_, one_pos, ?_⟩, -1 / 100, ?_, ?_, ?_⟩
  · intro i; fin_cases i <;> norm_num
  · simp [directResult, directAmount, addWater, Fin.sum_univ_two]; norm_num
  · unfold directAmount; rw [abs_neg]
  · unfold directAmount; norm_num
  · unfold directResult; norm_num

/-! ## Highest temperature and pressure of an envelope (5430-5459) -/

/-- The sum in `cricondentherm_direct_criteria` and `critcondenbar_direct_criteria`. -/
noncomputable def criterion (w dg dl : Fin n → ℝ) : ℝ := ∑ i, w i * (dg i - dl i)

/-- Logarithms of fugacity coefficients of a phase with temperature, pressure and mole fractions; the derivative obeys the Gibbs-Duhem
relation at the composition. -/
structure Incipient (F : Fin n → ℝ × ℝ × (Fin n → ℝ) → ℝ) (D : Fin n → (ℝ × ℝ × (Fin n → ℝ)) →L[ℝ] ℝ) (T P : ℝ) (w : Fin n → ℝ) : Prop where
  deriv : ∀ i, HasFDerivAt (F i) (D i) (T, P, w)
  duhem : ∀ v, ∑ i, w i * D i (0, 0, v) = 0

/-- Along a saturation curve with one phase of constant composition, the other with mole fractions `w`: the derivatives of temperature and
pressure are related through sums with the fractions of the phase that appears. -/
theorem along_curve (F : Fin n → ℝ × ℝ × (Fin n → ℝ) → ℝ) (D : Fin n → (ℝ × ℝ × (Fin n → ℝ)) →L[ℝ] ℝ) (O : Fin n → ℝ × ℝ → ℝ)
    (E : Fin n → (ℝ × ℝ) →L[ℝ] ℝ) (T P : ℝ → ℝ) (w : ℝ → Fin n → ℝ) (z : Fin n → ℝ) (t T' P' : ℝ) (w' : Fin n → ℝ)
    (hI : Incipient F D (T t) (P t) (w t)) (hO : ∀ i, HasFDerivAt (O i) (E i) (T t, P t)) (hT : HasDerivAt T T' t)
    (hP : HasDerivAt P P' t) (hw : HasDerivAt w w' t) (hpos : ∀ i, 0 < w t i) (hsum : ∀ s, ∑ i, w s i = 1)
    (heq : ∀ s i, Real.log (w s i) + F i (T s, P s, w s) = Real.log (z i) + O i (T s, P s)) :
    T' * ∑ i, w t i * (E i (1, 0) - D i (1, 0, 0)) + P' * ∑ i, w t i * (E i (0, 1) - D i (0, 1, 0)) = 0 := by
  have hwi : ∀ i, HasDerivAt (fun s => w s i) (w' i) t := fun i => (hasDerivAt_pi.1 hw) i
  have hws : ∑ i, w' i = 0 := by
    have h1 : HasDerivAt (fun s => ∑ i, w s i) (∑ i, w' i) t := HasDerivAt.fun_sum fun i _ => hwi i
    have h2 : (fun s => ∑ i, w s i) = fun _ => (1 : ℝ) := funext hsum
    rw [h2] at h1
    exact h1.unique (hasDerivAt_const t (1 : ℝ))
  have hc : HasDerivAt (fun s => (T s, P s, w s)) (T', P', w') t := hT.prodMk (hP.prodMk hw)
  have hc2 : HasDerivAt (fun s => (T s, P s)) (T', P') t := hT.prodMk hP
  have hD : ∀ i, D i (T', P', w') = T' * D i (1, 0, 0) + P' * D i (0, 1, 0) + D i (0, 0, w') := by
    intro i
    have : ((T', P', w') : ℝ × ℝ × (Fin n → ℝ)) = T' • (1, 0, 0) + P' • (0, 1, 0) + (0, 0, w') := by
      simp
    rw [this, map_add, map_add, map_smul, map_smul]
    simp
  have hE : ∀ i, E i (T', P') = T' * E i (1, 0) + P' * E i (0, 1) := by
    intro i
    have : ((T', P') : ℝ × ℝ) = T' • (1, 0) + P' • (0, 1) := by simp
    rw [this, map_add, map_smul, map_smul]
    simp
  have hi : ∀ i, w' i / w t i + D i (T', P', w') = E i (T', P') := by
    intro i
    have h1 : HasDerivAt (fun s => Real.log (w s i) + F i (T s, P s, w s)) (w' i / w t i + D i (T', P', w')) t :=
      ((hwi i).log (hpos i).ne').fun_add (HasFDerivAt.comp_hasDerivAt (f := fun s => (T s, P s, w s)) t (hI.deriv i) hc)
    have h2 : HasDerivAt (fun s => Real.log (z i) + O i (T s, P s)) (E i (T', P')) t :=
      (HasFDerivAt.comp_hasDerivAt (f := fun s => (T s, P s)) t (hO i) hc2).const_add _
    have h3 : (fun s => Real.log (w s i) + F i (T s, P s, w s)) = fun s => Real.log (z i) + O i (T s, P s) := funext fun s => heq s i
    rw [h3] at h1
    exact h1.unique h2
  have hsum2 : ∑ i, w t i * (E i (T', P') - D i (T', P', w')) = 0 := by
    have : ∀ i, w t i * (E i (T', P') - D i (T', P', w')) = w' i := by
      intro i
      rw [← hi i]
      have := (hpos i).ne'
      field_simp
      ring
    rw [Finset.sum_congr rfl fun i _ => this i, hws]
  have hG := hI.duhem w'
  have e : ∑ i, w t i * (E i (T', P') - D i (T', P', w'))
      = T' * ∑ i, w t i * (E i (1, 0) - D i (1, 0, 0)) + P' * ∑ i, w t i * (E i (0, 1) - D i (0, 1, 0)) - ∑ i, w t i * D i (0, 0, w') := by
    rw [Finset.mul_sum, Finset.mul_sum, ← Finset.sum_add_distrib, ← Finset.sum_sub_distrib]
    refine Finset.sum_congr rfl fun i _ => ?_
    rw [hD i, hE i]
    ring
  rw [hsum2, hG] at e
  linarith

/-- **C96.** On the dew curve, parametrized by pressure, the criterion of the cricondentherm vanishes where temperature has zero slope,
and nowhere else unless the sum with temperature derivatives vanishes too. -/
theorem C96_cricondentherm (F : Fin n → ℝ × ℝ × (Fin n → ℝ) → ℝ) (D : Fin n → (ℝ × ℝ × (Fin n → ℝ)) →L[ℝ] ℝ) (O : Fin n → ℝ × ℝ → ℝ)
    (E : Fin n → (ℝ × ℝ) →L[ℝ] ℝ) (T : ℝ → ℝ) (xs : ℝ → Fin n → ℝ) (z : Fin n → ℝ) (P T' : ℝ) (xs' : Fin n → ℝ)
    (hI : Incipient F D (T P) P (xs P)) (hO : ∀ i, HasFDerivAt (O i) (E i) (T P, P)) (hT : HasDerivAt T T' P) (hx : HasDerivAt xs xs' P)
    (hpos : ∀ i, 0 < xs P i) (hsum : ∀ s, ∑ i, xs s i = 1)
    (heq : ∀ s i, Real.log (xs s i) + F i (T s, s, xs s) = Real.log (z i) + O i (T s, s)) :
    (T' = 0 → criterion (xs P) (fun i => E i (0, 1)) (fun i => D i (0, 1, 0)) = 0)
      ∧ (criterion (xs P) (fun i => E i (0, 1)) (fun i => D i (0, 1, 0)) = 0
        → criterion (xs P) (fun i => E i (1, 0)) (fun i => D i (1, 0, 0)) ≠ 0 → T' = 0) := by
  have h := along_curve F D O E T (fun s => s) xs z P T' 1 xs' hI hO hT (hasDerivAt_id' P) hx hpos hsum heq
  unfold criterion
  constructor
  · intro h0
    rw [h0] at h
    linarith
  · intro hc hne
    rw [hc] at h
    have : T' * ∑ i, xs P i * (E i (1, 0) - D i (1, 0, 0)) = 0 := by linarith
    rcases mul_eq_zero.1 this with e | e
    · exact e
    · exact absurd e hne

/-- **C96.** On the bubble curve, parametrized by temperature, the criterion of the cricondenbar vanishes where pressure has zero slope,
and nowhere else unless the sum with pressure derivatives vanishes too. -/
theorem C96_cricondenbar_partial (F : Fin n → ℝ × ℝ × (Fin n → ℝ) → ℝ) (D : Fin n → (ℝ × ℝ × (Fin n → ℝ)) →L[ℝ] ℝ) (O : Fin n → ℝ × ℝ → ℝ)
    (E : Fin n → (ℝ × ℝ) →L[ℝ] ℝ) (P : ℝ → ℝ) (ys : ℝ → Fin n → ℝ) (z : Fin n → ℝ) (T P' : ℝ) (ys' : Fin n → ℝ)
    (hI : Incipient F D T (P T) (ys T)) (hO : ∀ i, HasFDerivAt (O i) (E i) (T, P T)) (hP : HasDerivAt P P' T) (hy : HasDerivAt ys ys' T)
    (hpos : ∀ i, 0 < ys T i) (hsum : ∀ s, ∑ i, ys s i = 1)
    (heq : ∀ s i, Real.log (ys s i) + F i (s, P s, ys s) = Real.log (z i) + O i (s, P s)) :
    (P' = 0 → criterion (ys T) (fun i => D i (1, 0, 0)) (fun i => E i (1, 0)) = 0)
      ∧ (criterion (ys T) (fun i => D i (1, 0, 0)) (fun i => E i (1, 0)) = 0
        → criterion (ys T) (fun i => D i (0, 1, 0)) (fun i => E i (0, 1)) ≠ 0 → P' = 0) := by
  have h := along_curve F D O E (fun s => s) P ys z T 1 P' ys' hI hO (hasDerivAt_id' T) hP hy hpos hsum heq
  have neg : ∀ a b : Fin n → ℝ, criterion (ys T) a b = -∑ i, ys T i * (b i - a i) := by
    intro a b
    unfold criterion
    rw [← Finset.sum_neg_distrib]
    exact Finset.sum_congr rfl fun i _ => by ring
  rw [neg, neg]
  constructor
  · intro h0
    rw [h0] at h
    linarith
  · intro hc hne
    have : P' * ∑ i, ys T i * (E i (0, 1) - D i (0, 1, 0)) = 0 := by linarith
    rcases mul_eq_zero.1 this with e | e
    · exact e
    · rw [e] at hne; simp at hne

/-- Dew pressure of an equimolar mixture with K values `2 exp (3 T) / P` and `2/3 exp (-T) / P` (5446-5459 at a dew point). -/
noncomputable def dewP (T : ℝ) : ℝ := 1 / (1 / 4 * Real.exp (-3 * T) + 3 / 4 * Real.exp T)

/-- **C96 fails.** On the dew curve the fractions of the gas are used where those of the liquid that appears would be right: the dew
pressure has its highest value, the sum with liquid fractions vanishes, but the criterion does not. -/
theorem C96_cricondenbar_fails :
    (∀ T, (1 / 2 : ℝ) / (2 * Real.exp (3 * T) / dewP T) + (1 / 2) / (2 / 3 * Real.exp (-T) / dewP T) = 1)
      ∧ HasDerivAt dewP 0 0 ∧ criterion ![1 / 4, 3 / 4] ![0, 0] ![3, -1] = 0 ∧ criterion ![1 / 2, 1 / 2] ![0, 0] ![3, -1] ≠ 0 := by
  refine ⟨fun T => ?_, ?_, ?_, ?_⟩
  · have hd : 0 < 1 / 4 * Real.exp (-3 * T) + 3 / 4 * Real.exp T := by positivity
    unfold dewP
    rw [show (3 : ℝ) * T = -(-3 * T) by ring, Real.exp_neg, Real.exp_neg]
    have h1 := (Real.exp_pos (-3 * T)).ne'
    have h2 := (Real.exp_pos T).ne'
    field_simp
    ring
  · have h1 : HasDerivAt (fun T : ℝ => 1 / 4 * Real.exp (-3 * T) + 3 / 4 * Real.exp T) (1 / 4 * (Real.exp (-3 * 0) * (-3 * 1)) + 3 / 4 * Real.exp 0) 0 :=
      ((((hasDerivAt_id' (0 : ℝ)).const_mul (-3)).exp).const_mul (1 / 4)).fun_add ((Real.hasDerivAt_exp 0).const_mul (3 / 4))
    have h2 := h1.fun_inv (by simp; norm_num)
    have h3 : dewP = fun T => (1 / 4 * Real.exp (-3 * T) + 3 / 4 * Real.exp T)⁻¹ := by
      funext T; unfold dewP; rw [one_div]
    rw [h3]
    refine h2.congr_deriv ?_
    simp
    norm_num
  · simp [criterion, Fin.sum_univ_two]; norm_num
  · simp [criterion, Fin.sum_univ_two]; norm_num

/-- The premises are met by one component with fugacity coefficients independent of everything. -/
example : Incipient (n := 1) (fun _ _ => 0) (fun _ => 0) 1 1 (fun _ => 1) := by
  refine ⟨fun i => hasFDerivAt_const _ _, fun v => by simp⟩

end Verif.FlashMixing
