import Verif.Eos.Saturation
import Mathlib.Analysis.SpecialFunctions.Log.Basic
import Mathlib.Analysis.SpecialFunctions.Pow.Real
import Mathlib.Tactic

/-!
# The solver drivers of equations of state (`thermo/eos.py`)

* `GCEOS.solve_T` (1630-1776): the temperature at a pressure and volume, with a choice between two solutions;
* `GCEOS.Psat` with polishing (2917-3088);
* `GCEOS.Tsat` (2731-2868).

The numerical solvers of `fluids` are parameters: `brenth`, `bisect`, `secant` and `newton` either return a number or raise (`none`),
and each theorem states what it assumes of them: soundness (a returned number is a root in the interval, to the tolerance asked for) or
completeness (with a sign change they return). The residuals are arbitrary functions. Simplifications: exact arithmetic (`isnan` and
overflow branches do not occur); `newton` in `Tsat` with `bisection=True` returns a number and the error of its last evaluation (the
global `curr_err`). The removal of attributes at the end of `solve_T` (1751-1756) is not modelled.
-/

namespace Verif.SatDrivers

open Verif.Saturation

/-! ## `solve_T` -/

/-- `isclose(a, b, rel_tol=1e-7)`. -/
def close (a b : ℝ) : Prop := |a - b| ≤ 1e-7 * max |a| |b|

/-- The choice `solution`: `'g'` or `'l'`. -/
inductive Side | g | l
deriving DecidableEq

/-- The two calls of `secant` (1702-1715): guess and `f0`; the second one, tried after a failure of the first, has the other guess but
the same `f0`. -/
noncomputable def secantCalls (f : ℝ → ℝ) (Tig Tliq : ℝ) (sol : Option Side) : List (ℝ × ℝ) :=
  open Classical in
  let first := if |f Tig| < |f Tliq| ∨ 20000 < Tliq ∨ sol = some .g then (Tig, f Tig) else (Tliq, f Tliq)
  [first, (if first.1 ≠ Tig then Tig else Tliq, first.2)]

/-- The intervals for a second solution in `T_brenth` (1722-1728) and in `T_secant` (1737-1743, whose first test is never met). -/
noncomputable def extraBounds (Tliq : ℝ) : List (ℝ × ℝ) :=
  open Classical in if 1e5 < Tliq then [(1e4, Tliq), (Tliq, Tliq * 10)] else []
@[inherit_doc extraBounds] noncomputable def bounds1 (Tliq : ℝ) (ts : Option ℝ) : List (ℝ × ℝ) :=
  (match ts with
  | some s => [(1e-3, s - 1e-5), (s + 1e-3, 1e4), (s + 1e-3, 1e5)]
  | none => [(1e-3, 1e4), (1e4, 1e5)]) ++ extraBounds Tliq
@[inherit_doc extraBounds] noncomputable def bounds2 (Tliq : ℝ) : List (ℝ × ℝ) := [(1e4, 1e5), (1e-3, 1e4)] ++ extraBounds Tliq

/-- The first interval in which `brenth` returns. -/
def search (br : ℝ → ℝ → Option ℝ) (bs : List (ℝ × ℝ)) : Option ℝ := bs.findSome? fun b => br b.1 b.2

/-- Lines 1720-1750: the second solution, if one is to be chosen. -/
noncomputable def second (br : ℝ → ℝ → Option ℝ) (Tliq : ℝ) (sol : Option Side) (tb ts : Option ℝ) : Option ℝ × Option ℝ :=
  open Classical in
  if sol = none then (tb, ts) else
  let redo : Prop := match tb, ts with
    | none, _ => True
    | some b, some s => close b s
    | some _, none => False
  let tb' := if redo then (search br (bounds1 Tliq ts)).or tb else tb
  let ts' := if ts = none then search br (bounds2 Tliq) else ts
  (tb', ts')

/-- Lines 1758-1776: which of the two is returned. -/
noncomputable def choose (sol : Option Side) : Option ℝ → Option ℝ → Option ℝ
  | some b, some s => open Classical in
    match sol with
    | some .g => some (max b s)
    | some .l => some (min b s)
    | none => if |b - 298.15| < |s - 298.15| then some b else some s
  | none, ts => ts
  | some b, none => some b

/-- `GCEOS.solve_T` (`thermo/eos.py` 1630-1776): `none` for an exception, `some none` for the result `None`. -/
noncomputable def solveT (f : ℝ → ℝ) (br sec : ℝ → ℝ → Option ℝ) (Tig Tliq : ℝ) (sol : Option Side) : Option (Option ℝ) :=
  open Classical in
  let tb := if f Tig * f Tliq < 0 ∧ Tliq < 3e4 then br Tig Tliq else none
  let ts := (secantCalls f Tig Tliq sol).findSome? fun c => sec c.1 c.2
  let go (tb : Option ℝ) : Option (Option ℝ) :=
    let s := second br Tliq sol tb ts
    some (choose sol s.1 s.2)
  if ts = none ∧ tb = none then (br 1e-3 1e4).bind fun t => go (some t) else go tb

/-- What `brenth` promises: a root between the bounds. -/
def Sound (f : ℝ → ℝ) (br : ℝ → ℝ → Option ℝ) : Prop := ∀ lo hi x, br lo hi = some x → f x = 0 ∧ min lo hi ≤ x ∧ x ≤ max lo hi

/-- With opposite signs at the bounds it returns, with equal signs it raises. -/
def Complete (f : ℝ → ℝ) (br : ℝ → ℝ → Option ℝ) : Prop :=
  ∀ lo hi, (f lo * f hi < 0 → (br lo hi).isSome) ∧ (0 < f lo * f hi → br lo hi = none)

lemma search_sound {f : ℝ → ℝ} {br : ℝ → ℝ → Option ℝ} (h : Sound f br) {bs : List (ℝ × ℝ)} {x : ℝ} (hx : search br bs = some x) :
    f x = 0 := by
  obtain ⟨b, _, hb⟩ := List.exists_of_findSome?_eq_some hx
  exact (h _ _ _ hb).1

/-- What the two candidates satisfy. -/
def Roots (f : ℝ → ℝ) (o : Option ℝ) : Prop := ∀ x, o = some x → f x = 0

lemma second_roots {f : ℝ → ℝ} {br : ℝ → ℝ → Option ℝ} (h : Sound f br) {Tliq : ℝ} {sol : Option Side} {tb ts : Option ℝ}
    (hb : Roots f tb) (hs : Roots f ts) (hsome : tb.isSome ∨ ts.isSome) :
    Roots f (second br Tliq sol tb ts).1 ∧ Roots f (second br Tliq sol tb ts).2 ∧
      ((second br Tliq sol tb ts).1.isSome ∨ (second br Tliq sol tb ts).2.isSome) := by
  unfold second
  have hor : ∀ bs, Roots f ((search br bs).or tb) := by
    intro bs x hx
    cases hq : search br bs with
    | none => rw [hq, Option.none_or] at hx; exact hb x hx
    | some y =>
      rw [hq, Option.some_or] at hx
      cases hx
      exact search_sound h hq
  have hor' : ∀ bs, tb.isSome → ((search br bs).or tb).isSome := by
    intro bs hh
    cases search br bs <;> simp [hh]
  by_cases h1 : sol = none
  · rw [if_pos h1]
    exact ⟨hb, hs, hsome⟩
  · rw [if_neg h1]
    dsimp only
    refine ⟨?_, ?_, ?_⟩
    · split_ifs
      · exact hor _
      · exact hb
    · split_ifs
      · exact fun x hx => search_sound h hx
      · exact hs
    · rcases hsome with hh | hh
      · left
        split_ifs
        · exact hor' _ hh
        · exact hh
      · right
        cases ts with
        | none => simp only [Option.isSome_none, Bool.false_eq_true] at hh
        | some s => simp

lemma choose_mem {sol : Option Side} {tb ts : Option ℝ} (h : tb.isSome ∨ ts.isSome) :
    ∃ x, choose sol tb ts = some x ∧ (tb = some x ∨ ts = some x) := by
  rcases tb with _ | b <;> rcases ts with _ | s
  · simp at h
  · exact ⟨s, rfl, .inr rfl⟩
  · exact ⟨b, rfl, .inl rfl⟩
  · rcases sol with _ | _ | _
    · simp only [choose]
      split_ifs
      · exact ⟨b, rfl, .inl rfl⟩
      · exact ⟨s, rfl, .inr rfl⟩
    · refine ⟨max b s, rfl, ?_⟩
      rcases max_choice b s with e | e <;> simp [e]
    · refine ⟨min b s, rfl, ?_⟩
      rcases min_choice b s with e | e <;> simp [e]

/-- **C139**: with solvers that return roots, `solve_T` returns a temperature with the given pressure or raises; it never returns
`None`. -/
theorem C139_solve_T {f : ℝ → ℝ} {br sec : ℝ → ℝ → Option ℝ} (hb : Sound f br) (hs : ∀ g f0 x, sec g f0 = some x → f x = 0)
    {Tig Tliq : ℝ} {sol : Option Side} {r : Option ℝ} (h : solveT f br sec Tig Tliq sol = some r) : ∃ T, r = some T ∧ f T = 0 := by
  unfold solveT at h
  have hts : Roots f ((secantCalls f Tig Tliq sol).findSome? fun c => sec c.1 c.2) := by
    intro x hx
    obtain ⟨c, _, hc⟩ := List.exists_of_findSome?_eq_some hx
    exact hs _ _ _ hc
  have htb : Roots f (open Classical in if f Tig * f Tliq < 0 ∧ Tliq < 3e4 then br Tig Tliq else none) := by
    intro x hx
    split_ifs at hx
    exact (hb _ _ _ hx).1
  dsimp only at h
  generalize ((secantCalls f Tig Tliq sol).findSome? fun c => sec c.1 c.2) = ts at h hts
  generalize (open Classical in if f Tig * f Tliq < 0 ∧ Tliq < 3e4 then br Tig Tliq else none) = tb at h htb
  have fin : ∀ tb, Roots f tb → (tb.isSome ∨ ts.isSome) →
      ∃ T, choose sol (second br Tliq sol tb ts).1 (second br Tliq sol tb ts).2 = some T ∧ f T = 0 := by
    intro tb htb hsome
    obtain ⟨h1, h2, h3⟩ := second_roots (Tliq := Tliq) (sol := sol) hb htb hts hsome
    obtain ⟨x, hx, hx'⟩ := choose_mem (sol := sol) h3
    refine ⟨x, hx, ?_⟩
    rcases hx' with e | e
    · exact h1 x e
    · exact h2 x e
  split_ifs at h with hc
  · cases hq : br 1e-3 1e4 with
    | none => rw [hq] at h; cases h
    | some t =>
      rw [hq] at h
      simp only [Option.bind_some, Option.some.injEq] at h
      rw [← h]
      exact fin (some t) (fun x hx => by cases hx; exact (hb _ _ _ hq).1) (.inl rfl)
  · simp only [Option.some.injEq] at h
    rw [← h]
    refine fin tb htb ?_
    rcases tb with _ | b
    · rcases ts with _ | s
      · exact absurd ⟨rfl, rfl⟩ hc
      · exact .inr rfl
    · exact .inl rfl

/-- **C139**: without a choice, of the two solutions found the one nearest to 298.15 K is returned. -/
theorem C139_nearest {f : ℝ → ℝ} {br sec : ℝ → ℝ → Option ℝ} {Tig Tliq b s : ℝ} (hsign : f Tig * f Tliq < 0) (hl : Tliq < 3e4)
    (hb : br Tig Tliq = some b) (hs : (secantCalls f Tig Tliq none).findSome? (fun c => sec c.1 c.2) = some s) :
    ∃ T, solveT f br sec Tig Tliq none = some (some T) ∧ (T = b ∨ T = s) ∧ |T - 298.15| ≤ |b - 298.15| ∧ |T - 298.15| ≤ |s - 298.15| := by
  unfold solveT
  simp only [hs, hb, hsign, hl, and_self, if_true, reduceCtorEq, if_false, second, choose]
  split_ifs with h
  · exact ⟨b, rfl, .inl rfl, le_rfl, h.le⟩
  · exact ⟨s, rfl, .inr rfl, not_lt.mp h, le_rfl⟩

/-- Two solutions: the residual changes its sign at each of them. -/
structure TwoRoots (f : ℝ → ℝ) (r1 r2 : ℝ) : Prop where
  /-- They are within the search range and not too close. -/
  lo : 1e-3 + 1e-4 < r1
  /-- As above. -/
  gap : r1 + 2e-3 < r2
  /-- As above. -/
  hi : r2 < 1e4
  /-- Signs. -/
  signs : ∃ σ : ℝ, σ ≠ 0 ∧ (∀ x, x < r1 → 0 < σ * f x) ∧ (∀ x, r1 < x → x < r2 → σ * f x < 0) ∧ (∀ x, r2 < x → 0 < σ * f x)
  /-- Roots. -/
  zero : f r1 = 0 ∧ f r2 = 0

lemma TwoRoots.root {f : ℝ → ℝ} {r1 r2 x : ℝ} (h : TwoRoots f r1 r2) (hx : f x = 0) : x = r1 ∨ x = r2 := by
  obtain ⟨σ, hσ, h1, h2, h3⟩ := h.signs
  rcases lt_trichotomy x r1 with e | e | e
  · have := h1 x e; simp [hx] at this
  · exact .inl e
  · rcases lt_trichotomy x r2 with e' | e' | e'
    · have := h2 x e e'; simp [hx] at this
    · exact .inr e'
    · have := h3 x e'; simp [hx] at this

lemma same_sign {σ a b : ℝ} (hσ : σ ≠ 0) (ha : 0 < σ * a) (hb : 0 < σ * b) : 0 < a * b := by
  have h1 : 0 < σ * a * (σ * b) := mul_pos ha hb
  have h2 : 0 < σ ^ 2 := by positivity
  have : σ * a * (σ * b) = σ ^ 2 * (a * b) := by ring
  rw [this] at h1
  exact (mul_pos_iff_of_pos_left h2).mp h1

lemma opp_sign {σ a b : ℝ} (hσ : σ ≠ 0) (ha : 0 < σ * a) (hb : σ * b < 0) : a * b < 0 := by
  have h1 : σ * a * (σ * b) < 0 := mul_neg_of_pos_of_neg ha hb
  have h2 : 0 < σ ^ 2 := by positivity
  have : σ * a * (σ * b) = σ ^ 2 * (a * b) := by ring
  rw [this] at h1
  by_contra hcon
  have := mul_nonneg h2.le (not_lt.mp hcon)
  linarith

/-- From either solution the search finds the other one. -/
lemma search_other {f : ℝ → ℝ} {br : ℝ → ℝ → Option ℝ} (hb : Sound f br) (hc : Complete f br) {r1 r2 : ℝ} (h : TwoRoots f r1 r2)
    (Tliq : ℝ) : search br (bounds1 Tliq (some r1)) = some r2 ∧ search br (bounds1 Tliq (some r2)) = some r1 := by
  obtain ⟨σ, hσ, h1, h2, h3⟩ := h.signs
  have a := h.lo
  have b := h.gap
  have c := h.hi
  norm_num at a b c
  constructor
  · have n1 : br 1e-3 (r1 - 1e-5) = none := (hc _ _).2 (same_sign hσ (h1 _ (by norm_num; linarith)) (h1 _ (by norm_num)))
    have hneg : f (r1 + 1e-3) * f 1e4 < 0 := by
      rw [mul_comm]
      exact opp_sign hσ (h3 _ (by norm_num; linarith)) (h2 _ (by norm_num) (by norm_num; linarith))
    obtain ⟨x, hx⟩ := Option.isSome_iff_exists.mp ((hc _ _).1 hneg)
    have hxr := hb _ _ _ hx
    have : x = r2 := by
      rcases h.root hxr.1 with e | e
      · exfalso
        have h5 := hxr.2.1
        rw [min_eq_left (by norm_num; linarith), e] at h5
        norm_num at h5
      · exact e
    simp only [search, bounds1, List.cons_append, List.findSome?_cons, n1, hx, this]
  · have hneg : f 1e-3 * f (r2 - 1e-5) < 0 :=
      opp_sign hσ (h1 _ (by norm_num; linarith)) (h2 _ (by norm_num; linarith) (by norm_num))
    obtain ⟨x, hx⟩ := Option.isSome_iff_exists.mp ((hc _ _).1 hneg)
    have hxr := hb _ _ _ hx
    have : x = r1 := by
      rcases h.root hxr.1 with e | e
      · exact e
      · exfalso
        have h5 := hxr.2.2
        rw [max_eq_right (by norm_num; linarith), e] at h5
        norm_num at h5
    simp only [search, bounds1, List.cons_append, List.findSome?_cons, hx, this]

lemma TwoRoots.not_close {f : ℝ → ℝ} {r1 r2 : ℝ} (h : TwoRoots f r1 r2) : ¬ close r1 r2 ∧ ¬ close r2 r1 := by
  have a := h.lo
  have b := h.gap
  have c := h.hi
  norm_num at a b c
  have e1 : |r1| = r1 := abs_of_pos (by linarith)
  have e2 : |r2| = r2 := abs_of_pos (by linarith)
  have e3 : |r1 - r2| = r2 - r1 := by rw [abs_sub_comm]; exact abs_of_pos (by linarith)
  have e4 : |r2 - r1| = r2 - r1 := abs_of_pos (by linarith)
  constructor
  · unfold close
    rw [e1, e2, e3, max_eq_right (by linarith)]
    norm_num
    linarith
  · unfold close
    rw [e1, e2, e4, max_eq_left (by linarith)]
    norm_num
    linarith

/-- **C139**: with two solutions in range and a secant that returns, the choice is honoured: the higher temperature for the gas, the
lower one for the liquid, whichever the secant found. -/
theorem C139_two_roots {f : ℝ → ℝ} {br sec : ℝ → ℝ → Option ℝ} (hb : Sound f br) (hc : Complete f br) {r1 r2 : ℝ} (h : TwoRoots f r1 r2)
    {Tig Tliq s : ℝ} {sol : Side} (hs : (secantCalls f Tig Tliq (some sol)).findSome? (fun c => sec c.1 c.2) = some s) (hs0 : f s = 0) :
    solveT f br sec Tig Tliq (some sol) = some (some (match sol with | .g => r2 | .l => r1)) := by
  have hgap : r1 < r2 := by have := h.gap; norm_num at this; linarith
  have key : ∀ tb, Roots f tb → choose (some sol) (second br Tliq (some sol) tb (some s)).1 (second br Tliq (some sol) tb (some s)).2 =
      some (match sol with | .g => r2 | .l => r1) := by
    intro tb htb
    have fin : ∀ x y, (x = r1 ∧ y = r2 ∨ x = r2 ∧ y = r1) →
        choose (some sol) (some x) (some y) = some (match sol with | .g => r2 | .l => r1) := by
      rintro x y (⟨rfl, rfl⟩ | ⟨rfl, rfl⟩) <;> cases sol <;>
        simp [choose, max_eq_left hgap.le, max_eq_right hgap.le, min_eq_left hgap.le, min_eq_right hgap.le]
    obtain ⟨so1, so2⟩ := search_other hb hc h Tliq
    obtain ⟨nc1, nc2⟩ := h.not_close
    unfold second
    simp only [reduceCtorEq, if_false]
    rcases tb with _ | b
    · simp only [if_true]
      rcases h.root hs0 with rfl | rfl
      · rw [so1]; exact fin _ _ (.inr ⟨rfl, rfl⟩)
      · rw [so2]; exact fin _ _ (.inl ⟨rfl, rfl⟩)
    · dsimp only
      rcases h.root hs0 with rfl | rfl <;> rcases h.root (htb b rfl) with rfl | rfl
      · split_ifs with hcl
        · rw [so1]; exact fin _ _ (.inr ⟨rfl, rfl⟩)
        · exact absurd (by simp [close]; positivity) hcl
      · rw [if_neg nc2]; exact fin _ _ (.inr ⟨rfl, rfl⟩)
      · rw [if_neg nc1]; exact fin _ _ (.inl ⟨rfl, rfl⟩)
      · split_ifs with hcl
        · rw [so2]; exact fin _ _ (.inl ⟨rfl, rfl⟩)
        · exact absurd (by simp [close]; positivity) hcl
  unfold solveT
  simp only [hs, reduceCtorEq, false_and, if_false]
  rw [key]
  intro x hx
  split_ifs at hx
  exact (hb _ _ _ hx).1

/-- **C139**: if the secant fails, the second solution is looked for between 0.001 and 10000 K as a whole, where there is no change of
sign (the intervals on both sides of the first solution are in a branch never reached, 1737): the choice is ignored and the one
solution known is returned. -/
theorem C139_second_fails {f : ℝ → ℝ} {br sec : ℝ → ℝ → Option ℝ} (hc : Complete f br) {r1 r2 : ℝ} (h : TwoRoots f r1 r2)
    {Tig Tliq b : ℝ} (hl : Tliq < 3e4) (hsign : f Tig * f Tliq < 0) (hbr : br Tig Tliq = some b) (hs : ∀ g f0, sec g f0 = none) (sol : Side) :
    solveT f br sec Tig Tliq (some sol) = some (some b) := by
  obtain ⟨σ, hσ, h1, h2, h3⟩ := h.signs
  have a := h.lo
  have b' := h.gap
  have c := h.hi
  norm_num at a b' c
  have hts : (secantCalls f Tig Tliq (some sol)).findSome? (fun c => sec c.1 c.2) = none := by
    rw [List.findSome?_eq_none_iff]
    exact fun _ _ => hs _ _
  have n1 : br 1e4 1e5 = none := (hc _ _).2 (same_sign hσ (h3 _ (by norm_num; linarith)) (h3 _ (by norm_num; linarith)))
  have n2 : br 1e-3 1e4 = none := (hc _ _).2 (same_sign hσ (h1 _ (by norm_num; linarith)) (h3 _ (by norm_num; linarith)))
  have hsr : search br (bounds2 Tliq) = none := by
    have : ¬ (1e5 : ℝ) < Tliq := by norm_num at hl ⊢; linarith
    simp only [search, bounds2, extraBounds, this, if_false, List.append_nil, List.findSome?_cons, n1, n2, List.findSome?_nil]
  unfold solveT
  simp only [hts, hbr, hsign, hl, and_self, if_true, reduceCtorEq, and_false, if_false, second, hsr, choose]

/-- A parabola with roots 100 and 400, an exact `brenth` for it and a secant from below. -/
noncomputable def para (x : ℝ) : ℝ := (x - 100) * (x - 400)
open Classical in
@[inherit_doc para] noncomputable def paraBr (lo hi : ℝ) : Option ℝ :=
  if para lo * para hi < 0 then
    if min lo hi ≤ 100 ∧ 100 ≤ max lo hi then some 100 else some 400 else none

lemma para_sound : Sound para paraBr ∧ Complete para paraBr := by
  constructor
  · intro lo hi x hx
    unfold paraBr at hx
    split_ifs at hx with h1 h2
    · cases hx
      exact ⟨by norm_num [para], h2.1, h2.2⟩
    · cases hx
      refine ⟨by norm_num [para], ?_⟩
      by_contra hcon
      rw [not_and_or] at hcon h2
      have : 0 ≤ para lo * para hi := by
        unfold para
        rcases le_total lo hi with hle | hle
        · rw [min_eq_left hle, max_eq_right hle] at hcon h2
          rcases h2 with h2 | h2 <;> rcases hcon with h3 | h3 <;> push Not at h2 h3
          · exact mul_nonneg (mul_nonneg (by linarith) (by linarith)) (mul_nonneg (by linarith) (by linarith))
          · exact mul_nonneg_of_nonpos_of_nonpos (mul_nonpos_of_nonneg_of_nonpos (by linarith) (by linarith))
              (mul_nonpos_of_nonneg_of_nonpos (by linarith) (by linarith))
          · linarith
          · exact mul_nonneg (mul_nonneg_of_nonpos_of_nonpos (by linarith) (by linarith))
              (mul_nonneg_of_nonpos_of_nonpos (by linarith) (by linarith))
        · rw [min_eq_right hle, max_eq_left hle] at hcon h2
          rcases h2 with h2 | h2 <;> rcases hcon with h3 | h3 <;> push Not at h2 h3
          · exact mul_nonneg (mul_nonneg (by linarith) (by linarith)) (mul_nonneg (by linarith) (by linarith))
          · exact mul_nonneg_of_nonpos_of_nonpos (mul_nonpos_of_nonneg_of_nonpos (by linarith) (by linarith))
              (mul_nonpos_of_nonneg_of_nonpos (by linarith) (by linarith))
          · linarith
          · exact mul_nonneg (mul_nonneg_of_nonpos_of_nonpos (by linarith) (by linarith))
              (mul_nonneg_of_nonpos_of_nonpos (by linarith) (by linarith))
      linarith
  · intro lo hi
    constructor
    · intro h
      unfold paraBr
      rw [if_pos h]
      split_ifs <;> rfl
    · intro h
      unfold paraBr
      rw [if_neg (by linarith)]

lemma para_two : TwoRoots para 100 400 := by
  refine ⟨by norm_num, by norm_num, by norm_num, ⟨1, one_ne_zero, ?_, ?_, ?_⟩, by norm_num [para]⟩
  · intro x hx
    rw [one_mul]
    exact mul_pos_of_neg_of_neg (by linarith) (by linarith)
  · intro x hx hx'
    rw [one_mul]
    exact mul_neg_of_pos_of_neg (by linarith) (by linarith)
  · intro x hx
    rw [one_mul]
    exact mul_pos (by linarith) (by linarith)

/-- The hypotheses of `C139_solve_T`, `C139_nearest` and `C139_two_roots` for the parabola with guesses 50 and 200 and a secant which
finds the lower root: without a choice 100 K (both found are the same), with choices 400 K and 100 K. -/
example : Sound para paraBr ∧ Complete para paraBr ∧ TwoRoots para 100 400 ∧ para 50 * para 200 < 0 ∧ paraBr 50 200 = some 100 ∧
    solveT para paraBr (fun _ _ => some 100) 50 200 (some .g) = some (some 400) ∧
    solveT para paraBr (fun _ _ => some 100) 50 200 (some .l) = some (some 100) := by
  refine ⟨para_sound.1, para_sound.2, para_two, by norm_num [para], by norm_num [paraBr, para], ?_, ?_⟩
  · exact C139_two_roots para_sound.1 para_sound.2 para_two (s := 100) rfl (by norm_num [para])
  · exact C139_two_roots para_sound.1 para_sound.2 para_two (s := 100) rfl (by norm_num [para])

/-- The hypotheses of `C139_second_fails`: the gas is asked for and the lower temperature returned. -/
example : solveT para paraBr (fun _ _ => none) 50 200 (some .g) = some (some 100) :=
  C139_second_fails para_sound.2 para_two (by norm_num) (by norm_num [para]) (by norm_num [paraBr, para]) (fun _ _ => rfl) .g

/-- **C139**: the second call of `secant` is given the residual of the first guess as that of the other one. -/
theorem C139_f0_fails {f : ℝ → ℝ} {Tig Tliq : ℝ} (hne : f Tig ≠ f Tliq) (sol : Option Side) :
    ∃ c ∈ secantCalls f Tig Tliq sol, c.2 ≠ f c.1 := by
  have hT : Tig ≠ Tliq := fun e => hne (by rw [e])
  refine ⟨_, List.mem_cons_of_mem _ List.mem_cons_self, ?_⟩
  by_cases h : |f Tig| < |f Tliq| ∨ 20000 < Tliq ∨ sol = some .g
  · simp only [h, if_true, ne_eq, not_true_eq_false, if_false]
    exact hne
  · simp only [h, if_false, ne_eq, hT.symm, not_false_eq_true, if_true]
    exact fun e => hne e.symm

/-- **C139**: the first call is truthful, and has the guess with the smaller residual, or the gas one if the gas is asked for or the
other guess is above 20000 K. -/
theorem C139_first (f : ℝ → ℝ) (Tig Tliq : ℝ) (sol : Option Side) :
    ∃ c rest, secantCalls f Tig Tliq sol = c :: rest ∧ c.2 = f c.1 ∧ (c.1 = Tig ∨ c.1 = Tliq) ∧
      (sol = some .g → c.1 = Tig) ∧ (20000 < Tliq → c.1 = Tig) ∧
      (sol ≠ some .g → Tliq ≤ 20000 → |c.2| ≤ |f Tig| ∧ |c.2| ≤ |f Tliq|) := by
  refine ⟨_, _, rfl, ?_⟩
  by_cases h : |f Tig| < |f Tliq| ∨ 20000 < Tliq ∨ sol = some .g
  · simp only [h, if_true]
    refine ⟨trivial, .inl trivial, fun _ => trivial, fun _ => trivial, fun h1 h2 => ?_⟩
    rcases h with h | h | h
    · exact ⟨le_rfl, h.le⟩
    · linarith
    · exact absurd h h1
  · simp only [h, if_false]
    push Not at h
    exact ⟨trivial, .inr trivial, fun h1 => absurd h1 h.2.2, fun h1 => absurd h1 (not_lt.mpr h.2.1), fun _ _ => ⟨h.1, le_rfl⟩⟩

/-! ## `Psat` -/

/-- The fugacities of liquid and gas at a pressure; `none` where there is no such root (`AttributeError`). -/
structure Fugs where
  /-- `fugacity_l`. -/
  l : ℝ → Option ℝ
  /-- `fugacity_g`. -/
  g : ℝ → Option ℝ

/-- `to_solve_bisect` (`thermo/eos.py` 3026-3040). -/
noncomputable def bisectF (e : Fugs) (P : ℝ) : ℝ :=
  match e.l P, e.g P with
  | none, _ => 1e20
  | some _, none => -1e20
  | some l, some g => l - g

/-- The error of `to_solve_newton` (2969-2999): `none` where it raises. -/
def newtonF (e : Fugs) (P : ℝ) : Option ℝ := do
  let l ← e.l P
  let g ← e.g P
  return l - g

/-- The intervals of line 3041. -/
noncomputable def ranges (Psat Pc : ℝ) : List (ℝ × ℝ) :=
  [(0.98 * Psat, 1.02 * Psat), (1, Pc), (1e-40, 1), (Pc * 0.9, Pc * 1.000000001), (Psat * 0.9999, Pc)]

/-- The loop over points (3064-3079) up to the bracket. -/
noncomputable def bracket (e : Fugs) : List ℝ → Option ℝ → Option ℝ → Option (ℝ × ℝ)
  | [], _, _ => none
  | p :: ps, low, high =>
    open Classical in
    let high' := match newtonF e p with | some err => if 0 < err then some p else high | none => high
    let low' := match newtonF e p with | some err => if err < 0 then some p else low | none => low
    match low', high' with
    | some a, some b => some (a, b)
    | _, _ => bracket e ps low' high'

/-- The polishing of `Psat` (2962-3088) from the estimate `P0`: the results of `newton`, of `bisect` at bounds and tolerance, and of
`brenth` at bounds; `none` for `ValueError`. -/
noncomputable def polish (e : Fugs) (Pc P0 : ℝ) (points : List ℝ) (newton : Option ℝ) (bisect : ℝ → ℝ → ℝ → Option ℝ)
    (brenth : ℝ → ℝ → Option ℝ) : Option ℝ :=
  open Classical in
  match newton with
  | some P => some P
  | none =>
    match (ranges P0 Pc).findSome? fun r => bisect r.1 r.2 (1e-6 * P0) with
    | some P => some P
    | none =>
      match bracket e points none none with
      | none => none
      | some b => match brenth b.1 b.2 with
        | none => none
        | some P => if 1e-4 < |bisectF e P / P| then none else some P

/-- Liquid and gas both exist and their fugacities agree to `tol`. -/
def Saturated (e : Fugs) (P tol : ℝ) : Prop := ∃ l g, e.l P = some l ∧ e.g P = some g ∧ |l - g| ≤ tol

lemma saturated_of_bisectF {e : Fugs} {P tol : ℝ} (h : |bisectF e P| ≤ tol) (ht : tol < 1e20) : Saturated e P tol := by
  unfold bisectF at h
  cases hl : e.l P with
  | none =>
    rw [hl] at h
    dsimp only at h
    rw [abs_of_pos (by norm_num)] at h
    linarith
  | some l =>
    cases hg : e.g P with
    | none =>
      rw [hl, hg] at h
      dsimp only at h
      rw [abs_neg, abs_of_pos (by norm_num)] at h
      linarith
    | some g =>
      rw [hl, hg] at h
      exact ⟨l, g, hl, hg, h⟩

/-- **C139** (partial): if Newton's method raises and bisection keeps its tolerance, a pressure returned by the polished `Psat` is one
at which liquid and gas exist with fugacities equal to a tolerance of 0.0001 times it or a millionth of the estimate.
Missing: when Newton's method returns (`C139_newton_fails`). -/
theorem C139_Psat_partial {e : Fugs} {Pc P0 : ℝ} {points : List ℝ} {bisect : ℝ → ℝ → ℝ → Option ℝ} {brenth : ℝ → ℝ → Option ℝ}
    (hb : ∀ lo hi tol P, bisect lo hi tol = some P → |bisectF e P| ≤ tol) (h0 : P0 < 1e20) {P : ℝ} (hP : 0 < P) (hP' : P < 1e20)
    (h : polish e Pc P0 points none bisect brenth = some P) : Saturated e P (1e-6 * P0) ∨ Saturated e P (1e-4 * P) := by
  unfold polish at h
  dsimp only at h
  cases hr : (ranges P0 Pc).findSome? fun r => bisect r.1 r.2 (1e-6 * P0) with
  | some Q =>
    rw [hr] at h
    cases h
    obtain ⟨r, _, hr⟩ := List.exists_of_findSome?_eq_some hr
    left
    refine saturated_of_bisectF (hb _ _ _ _ hr) ?_
    norm_num at h0 ⊢
    linarith
  | none =>
    rw [hr] at h
    dsimp only at h
    cases hbr : bracket e points none none with
    | none => rw [hbr] at h; cases h
    | some b =>
      rw [hbr] at h
      dsimp only at h
      cases hq : brenth b.1 b.2 with
      | none => rw [hq] at h; cases h
      | some Q =>
        rw [hq] at h
        dsimp only at h
        split_ifs at h with hc
        cases h
        right
        rw [not_lt, abs_div, abs_of_pos hP, div_le_iff₀ hP] at hc
        refine saturated_of_bisectF hc ?_
        norm_num at hP' ⊢
        linarith

/-- **C139**: the result of Newton's method, which is called without requiring a check of its last value, is returned whatever it is:
even for a fluid without two phases anywhere. -/
theorem C139_newton_fails (e : Fugs) (Pc P0 P : ℝ) (points : List ℝ) (bisect : ℝ → ℝ → ℝ → Option ℝ) (brenth : ℝ → ℝ → Option ℝ) :
    polish e Pc P0 points (some P) bisect brenth = some P ∧
      (∃ e : Fugs, polish e Pc P0 points (some P) bisect brenth = some P ∧ ∀ tol, ¬ Saturated e P tol) := by
  refine ⟨rfl, ⟨fun _ => none, fun _ => none⟩, rfl, ?_⟩
  rintro tol ⟨l, g, h, _⟩
  cases h

/-- **C139**: if the sign of the error changes once, at a pressure between 1e-40 Pa and the critical pressure (other than exactly
1 Pa), bisection between the fixed bounds succeeds even if Newton's method raises. -/
theorem C139_Psat_complete {e : Fugs} {Pc P0 P' : ℝ} {points : List ℝ} {bisect : ℝ → ℝ → ℝ → Option ℝ} {brenth : ℝ → ℝ → Option ℝ}
    (hc : ∀ lo hi tol, bisectF e lo * bisectF e hi < 0 → (bisect lo hi tol).isSome)
    (hneg : ∀ P, 0 < P → P < P' → bisectF e P < 0) (hpos : ∀ P, P' < P → 0 < bisectF e P) (hlo : 1e-40 < P') (hhi : P' < Pc) (h1 : P' ≠ 1) :
    (polish e Pc P0 points none bisect brenth).isSome := by
  have key : ((ranges P0 Pc).findSome? fun r => bisect r.1 r.2 (1e-6 * P0)).isSome := by
    have : ∃ r ∈ ranges P0 Pc, bisectF e r.1 * bisectF e r.2 < 0 := by
      rcases lt_or_gt_of_ne h1 with h1 | h1
      · refine ⟨(1e-40, 1), by simp [ranges], ?_⟩
        exact mul_neg_of_neg_of_pos (hneg _ (by norm_num) hlo) (hpos _ h1)
      · refine ⟨(1, Pc), by simp [ranges], ?_⟩
        exact mul_neg_of_neg_of_pos (hneg _ one_pos h1) (hpos _ hhi)
    obtain ⟨r, hr, hs⟩ := this
    rw [List.findSome?_isSome_iff]
    exact ⟨r, hr, hc _ _ _ hs⟩
  obtain ⟨P, hP⟩ := Option.isSome_iff_exists.mp key
  unfold polish
  simp only [hP, Option.isSome_some]

/-- Liquid below 2, gas always: the errors change their sign at 2 Pa. -/
noncomputable def demoFugs : Fugs := ⟨fun P => some (2 * P), fun P => some (P + 2)⟩

/-- The hypotheses of `C139_Psat_partial` and `C139_Psat_complete`, with an exact bisection. -/
example : (∀ P, 0 < P → P < 2 → bisectF demoFugs P < 0) ∧ (∀ P, 2 < P → 0 < bisectF demoFugs P) ∧ |bisectF demoFugs 2| ≤ 0 ∧
    polish demoFugs 100 3 [] none (fun lo hi _ => open Classical in if bisectF demoFugs lo * bisectF demoFugs hi < 0 then some 2 else none)
      (fun _ _ => none) = some 2 := by
  refine ⟨fun P _ h => ?_, fun P h => ?_, ?_, ?_⟩
  · simp only [bisectF, demoFugs]; linarith
  · simp only [bisectF, demoFugs]; linarith
  · norm_num [bisectF, demoFugs]
  · norm_num [polish, ranges, bisectF, demoFugs]

lemma bracket_mem {e : Fugs} {ps : List ℝ} {low high : Option ℝ} {a b : ℝ} (h : bracket e ps low high = some (a, b))
    (hl : ∀ x, low = some x → bisectF e x < 0) (hh : ∀ x, high = some x → 0 < bisectF e x) : bisectF e a < 0 ∧ 0 < bisectF e b := by
  have hN : ∀ p err, newtonF e p = some err → bisectF e p = err := by
    intro p err hp
    unfold newtonF at hp
    unfold bisectF
    cases h1 : e.l p with
    | none => rw [h1] at hp; cases hp
    | some l =>
      cases h2 : e.g p with
      | none => rw [h1, h2] at hp; cases hp
      | some g => rw [h1, h2] at hp; cases hp; rfl
  induction ps generalizing low high with
  | nil => cases h
  | cons p ps ih =>
    unfold bracket at h
    dsimp only at h
    have hh' : ∀ x, (match newtonF e p with | some err => open Classical in if 0 < err then some p else high | none => high) = some x →
        0 < bisectF e x := by
      intro x hx
      cases hp : newtonF e p with
      | none => rw [hp] at hx; exact hh x hx
      | some err =>
        rw [hp] at hx
        dsimp only at hx
        split_ifs at hx with hc
        · cases hx; rw [hN p err hp]; exact hc
        · exact hh x hx
    have hl' : ∀ x, (match newtonF e p with | some err => open Classical in if err < 0 then some p else low | none => low) = some x →
        bisectF e x < 0 := by
      intro x hx
      cases hp : newtonF e p with
      | none => rw [hp] at hx; exact hl x hx
      | some err =>
        rw [hp] at hx
        dsimp only at hx
        split_ifs at hx with hc
        · cases hx; rw [hN p err hp]; exact hc
        · exact hl x hx
    generalize (match newtonF e p with | some err => open Classical in if 0 < err then some p else high | none => high) = H at h hh'
    generalize (match newtonF e p with | some err => open Classical in if err < 0 then some p else low | none => low) = L at h hl'
    rcases L with _ | x <;> rcases H with _ | y
    · exact ih h hl' hh'
    · exact ih h hl' hh'
    · exact ih h hl' hh'
    · cases h
      exact ⟨hl' _ rfl, hh' _ rfl⟩

/-- **C139**: the points found by the last search have errors of opposite sign, so the final solver has a bracket. -/
theorem C139_bracket {e : Fugs} {ps : List ℝ} {a b : ℝ} (h : bracket e ps none none = some (a, b)) :
    bisectF e a < 0 ∧ 0 < bisectF e b ∧ a ≠ b := by
  have := bracket_mem h (fun _ h => by cases h) (fun _ h => by cases h)
  exact ⟨this.1, this.2, fun e => by rw [e] at this; linarith [this.1, this.2]⟩

/-- A bracket is found among three points. -/
example : bracket demoFugs [3, 5, 1] none none = some (1, 5) := by
  norm_num [bracket, newtonF, demoFugs]

/-- One step of Newton's method with the guarded derivative (2988-2999). -/
noncomputable def newtonStep (P err d : ℝ) : ℝ :=
  open Classical in
  let d' := if P - err / d ≤ 0 then -1.0001 else d
  P - err / d'

/-- **C139**: the guard keeps the pressure positive whenever the gas fugacity does not exceed the pressure. -/
theorem C139_step {P fl fg d : ℝ} (hP : 0 < P) (hl : 0 < fl) (hg : fg ≤ P) : 0 < newtonStep P (fl - fg) d := by
  unfold newtonStep
  dsimp only
  split_ifs with h
  · norm_num
    have : (fl - fg) / -(10001 / 10000) = (fg - fl) * (10000 / 10001) := by
      rw [div_neg, div_div_eq_mul_div]; ring
    rw [this]
    nlinarith
  · exact not_le.mp h

example : newtonStep 1 (1 / 2 - 1) 1 = 3 / 2 ∧ newtonStep 1 (1 / 2 - 1) (-1 / 4) = 5001 / 10001 := by
  constructor <;> norm_num [newtonStep]

/-- `Psat(T, polish, guess)` as a whole (2917-3088), with the polishing as a function of the estimate. -/
noncomputable def psat (k : Corr) (T : ℝ) (pol : Bool) (guess : Option ℝ) (run : ℝ → Option ℝ) : Option ℝ :=
  open Classical in
  if T = k.Tc then some k.Pc else
  let Tr := T / k.Tc
  let x := k.x T
  let est : Option ℝ :=
    if 0.999 < Tr ∧ k.rk = false then
      let Psat := horner k.crit x * Tr * k.Pc
      if k.Pc < Psat ∧ T < k.Tc then some (k.Pc * (1 - 1e-14)) else some Psat
    else
      let x' := if k.last < x then (if pol then some k.last else none) else some x
      x'.map fun x => Real.exp (horner (pick x k.low) x) * Tr * k.Pc
  est.bind fun P => if pol then (if k.Tc < T then none else run (guess.getD P)) else some P

/-- **C139**: at the critical temperature `Psat` is the critical pressure, polished or not; without polishing it is the correlation and
the guess is ignored; polishing above the critical temperature raises; and below it the polishing starts from the guess if given,
from the correlation otherwise, with its argument held at the end of the range, where the unpolished function raises. -/
theorem C139_Psat (k : Corr) (T : ℝ) (guess : Option ℝ) (run : ℝ → Option ℝ) :
    (∀ pol, psat k k.Tc pol guess run = some k.Pc) ∧ psat k T false guess run = k.psat T ∧
      (k.Tc < T → psat k T true guess run = none) ∧
      (∀ P, T < k.Tc → k.psat T = some P → psat k T true guess run = run (guess.getD P)) ∧
      (T < k.Tc → k.psat T = none → psat k T true guess run =
        run (guess.getD (Real.exp (horner (pick k.last k.low) k.last) * (T / k.Tc) * k.Pc))) := by
  refine ⟨fun pol => by simp [psat], ?_, ?_, ?_, ?_⟩
  · unfold psat Corr.psat
    simp only [Bool.false_eq_true, if_false]
    split_ifs <;> simp
  · intro h
    unfold psat
    rw [if_neg h.ne']
    simp only [if_true, h, Option.bind_fun_none]
  · intro P h hP
    unfold Corr.psat at hP
    unfold psat
    rw [if_neg h.ne] at hP ⊢
    dsimp only at hP ⊢
    have hn : ¬ k.Tc < T := not_lt.mpr h.le
    simp only [if_true, hn, if_false]
    split_ifs at hP ⊢ with h1 h2 h3 <;> cases hP <;> simp
  · intro h hP
    unfold Corr.psat at hP
    unfold psat
    rw [if_neg h.ne] at hP ⊢
    dsimp only at hP ⊢
    have hn : ¬ k.Tc < T := not_lt.mpr h.le
    simp only [if_true, hn, if_false]
    split_ifs at hP ⊢ with h1 h2 h3
    simp

/-- The hypotheses of `C139_Psat`: a temperature inside and one below the range of the correlation. -/
example : demoCorr.psat 50 ≠ none ∧ demoCorr.psat 10 = none ∧ (50 : ℝ) < demoCorr.Tc := by
  refine ⟨?_, ?_, by norm_num [demoCorr]⟩
  · norm_num [Corr.psat, Corr.x, demoCorr]
    exact fun h => by cases h
  · norm_num [Corr.psat, Corr.x, demoCorr]

/-! ## `Tsat` -/

/-- The first guess (2802). -/
noncomputable def guessT (Tc Pc P : ℝ) : ℝ := -5.4 * Tc / (1 * Real.log (P / Pc) - 5.4)

/-- **C139**: the guess is the temperature at which `Pc exp(5.4 (1 - Tc/T))` is the pressure; it is between zero and the critical
temperature for pressures below the critical one, and the critical temperature at it. -/
theorem C139_guess {Tc Pc P : ℝ} (hT : 0 < Tc) (hPc : 0 < Pc) (hP : 0 < P) :
    (Real.log (P / Pc) ≠ 5.4 → Pc * Real.exp (5.4 * (1 - Tc / guessT Tc Pc P)) = P) ∧ (P < Pc → 0 < guessT Tc Pc P ∧ guessT Tc Pc P < Tc) ∧
      guessT Tc Pc Pc = Tc ∧ (Pc * Real.exp 5.4 < P → guessT Tc Pc P < 0) := by
  have hr : 0 < P / Pc := div_pos hP hPc
  have e : guessT Tc Pc P = 5.4 * Tc / (5.4 - Real.log (P / Pc)) := by
    unfold guessT
    rw [one_mul, ← neg_sub, div_neg, neg_mul, neg_div, neg_neg]
  refine ⟨fun hne => ?_, fun h => ?_, ?_, fun h => ?_⟩
  · have hd : 5.4 - Real.log (P / Pc) ≠ 0 := sub_ne_zero.mpr hne.symm
    have : 5.4 * (1 - Tc / guessT Tc Pc P) = Real.log (P / Pc) := by
      rw [e]
      have h54 : (5.4 : ℝ) ≠ 0 := by norm_num
      field_simp
      ring
    rw [this, Real.exp_log hr]
    field_simp
  · have hl : Real.log (P / Pc) < 0 := Real.log_neg hr ((div_lt_one hPc).mpr h)
    have hd : 0 < 5.4 - Real.log (P / Pc) := by norm_num; linarith
    rw [e]
    refine ⟨by positivity, ?_⟩
    rw [div_lt_iff₀ hd]
    nlinarith
  · unfold guessT
    rw [div_self hPc.ne', Real.log_one]
    norm_num
  · have hl : 5.4 < Real.log (P / Pc) := by
      rw [Real.lt_log_iff_exp_lt hr, lt_div_iff₀ hPc]
      linarith
    rw [e]
    exact div_neg_of_pos_of_neg (by positivity) (by linarith)

example : guessT 600 40 40 = 600 := (C139_guess (by norm_num) (by norm_num) (by norm_num : (0 : ℝ) < 40)).2.2.1

/-- The solvers of `Tsat`: `newton(to_solve, guess, low, high, bisection=True)` with the error of the last evaluation; `brenth` on
`Psat(T) - P`; `newton(to_solve_newton, guess, low, high)` with `none` for no upper bound; and `brenth` on the fugacities. -/
structure Solvers where
  /-- Bounded Newton on `log Psat`. -/
  newtonP : ℝ → ℝ → ℝ → Option (ℝ × ℝ)
  /-- `brenth(to_solve, lo, hi)`. -/
  brenthP : ℝ → ℝ → Option ℝ
  /-- Newton on the fugacities: guess, low, high, iterations. -/
  newtonF : ℝ → ℝ → Option ℝ → ℕ → Option ℝ
  /-- `brenth(to_solve_newton, lo, hi)`. -/
  brenthF : ℝ → ℝ → Option ℝ

/-- The first part of `Tsat` (2809-2835): `.inl` a returned temperature, `.inr` the guess with which to go on. -/
noncomputable def tsat1 (s : Solvers) (psat : ℝ → Option ℝ) (Tc P guess : ℝ) : ℝ ⊕ ℝ :=
  open Classical in
  let low_hope := max (guess * 0.5) (0.2 * Tc)
  let high_hope := min Tc (guess * 1.5)
  match psat low_hope, psat high_hope with
  | some a, some b =>
    if (a - P) * (b - P) < 0 then
      let guess := if guess < low_hope ∨ high_hope < guess then 0.5 * (low_hope + high_hope) else guess
      match s.newtonP guess low_hope high_hope with
      | some (T, err) =>
        let rel := |err| / P
        if rel < 1e-9 then .inl T else if rel < 1e-2 then .inr T else .inr guess
      | none => .inr guess
    else
      match s.brenthP (0.2 * Tc) Tc with
      | some T => .inl T
      | none => match s.brenthP (0.2 * Tc) (Tc * 1.5) with
        | some T => .inl T
        | none => .inr guess
  | _, _ => .inr guess

/-- The second part (2836-2868); `low` and `high` are from the original guess. `F` is the error of the fugacities. -/
noncomputable def tsat2 (s : Solvers) (F : ℝ → ℝ) (Tc P guess low high : ℝ) : Option ℝ :=
  open Classical in
  match s.newtonF guess (Tc * 1e-5) none 100 with
  | some T => some T
  | none =>
    let second := (s.newtonF guess low (some high) 100).filter fun T => decide (T ≠ low ∧ T ≠ high)
    match second with
    | some T => some T
    | none =>
      let third := (s.newtonF guess low (some (high * 2)) 250).filter fun T => decide (T ≠ low ∧ T ≠ high * 2)
      match third with
      | some T => some T
      | none =>
        match s.newtonF guess low (some high) 200 with
        | none => s.brenthF low high
        | some T => if |F T| = P then s.brenthF low high else some T

/-- `Tsat` (`thermo/eos.py` 2731-2868). -/
noncomputable def tsat (s : Solvers) (psat : ℝ → Option ℝ) (F : ℝ → ℝ) (Tc Pc P : ℝ) : Option ℝ :=
  let guess := guessT Tc Pc P
  match tsat1 s psat Tc P guess with
  | .inl T => some T
  | .inr g => tsat2 s F Tc P g (guess * 0.5) (guess * 2)

/-- What the first part asks of the solvers: the error of the bounded Newton is the one at its result, and `brenth` returns roots. -/
structure SolversSound (s : Solvers) (psat : ℝ → Option ℝ) (P : ℝ) : Prop where
  /-- The last evaluation was at the result. -/
  newtonP : ∀ g lo hi T err, s.newtonP g lo hi = some (T, err) → ∃ p, psat T = some p ∧ err = p - P
  /-- Roots. -/
  brenthP : ∀ lo hi T, s.brenthP lo hi = some T → psat T = some P

/-- **C139**: a temperature returned by the first part of `Tsat` has the pressure as its saturation pressure, to one part in a
billion. -/
theorem C139_Tsat {s : Solvers} {psat : ℝ → Option ℝ} {F : ℝ → ℝ} {Tc Pc P T : ℝ} (hs : SolversSound s psat P) (hP : 0 < P)
    (h : tsat1 s psat Tc P (guessT Tc Pc P) = .inl T) :
    tsat s psat F Tc Pc P = some T ∧ ∃ p, psat T = some p ∧ |p - P| < 1e-9 * P := by
  refine ⟨by simp only [tsat, h], ?_⟩
  unfold tsat1 at h
  dsimp only at h
  have exact' : ∀ T, psat T = some P → ∃ p, psat T = some p ∧ |p - P| < 1e-9 * P := fun T hT =>
    ⟨P, hT, by rw [sub_self, abs_zero]; positivity⟩
  split at h
  · split_ifs at h
    · split at h
      · split_ifs at h with h1 h2
        all_goals cases h
        rename_i hq
        obtain ⟨p, hp, he⟩ := hs.newtonP _ _ _ _ _ hq
        refine ⟨p, hp, ?_⟩
        rw [he, div_lt_iff₀ hP] at h1
        exact h1
      · cases h
    · split at h
      · split_ifs at h with h1 h2
        all_goals cases h
        rename_i hq
        obtain ⟨p, hp, he⟩ := hs.newtonP _ _ _ _ _ hq
        refine ⟨p, hp, ?_⟩
        rw [he, div_lt_iff₀ hP] at h1
        exact h1
      · cases h
    · split at h
      · cases h
        rename_i hq
        exact exact' _ (hs.brenthP _ _ _ hq)
      · split at h
        · cases h
          rename_i hq
          exact exact' _ (hs.brenthP _ _ _ hq)
        · cases h
  · cases h

/-- **C139**: if the saturation pressure is defined and increasing from 0.2 Tc to Tc, is the critical pressure there, and the pressure lies
between its values, the first part does return: with a bounded Newton converging in a bracket and a `brenth` returning for a change
of sign. -/
theorem C139_Tsat_complete {s : Solvers} {ps : ℝ → ℝ} {F : ℝ → ℝ} {Tc Pc P : ℝ} (hTc : 0 < Tc)
    (hn : ∀ g lo hi, lo ≤ g → g ≤ hi → (ps lo - P) * (ps hi - P) < 0 → ∃ T, s.newtonP g lo hi = some (T, 0)) (hP : 0 < P)
    (hb : ∀ lo hi, (ps lo - P) * (ps hi - P) < 0 → (s.brenthP lo hi).isSome)
    (hmono : StrictMono ps) (hl : ps (0.2 * Tc) < P) (hh : P < ps Tc) :
    ∃ T, tsat s (fun T => some (ps T)) F Tc Pc P = some T ∧ tsat1 s (fun T => some (ps T)) Tc P (guessT Tc Pc P) = .inl T := by
  have key : ∃ T, tsat1 s (fun T => some (ps T)) Tc P (guessT Tc Pc P) = .inl T := by
    unfold tsat1
    dsimp only
    set g := guessT Tc Pc P
    set lo := max (g * 0.5) (0.2 * Tc)
    set hi := min Tc (g * 1.5)
    have fin : ∀ g', lo ≤ g' → g' ≤ hi → (ps lo - P) * (ps hi - P) < 0 → ∃ T, (match s.newtonP g' lo hi with
        | some (T, err) => open Classical in if |err| / P < 1e-9 then Sum.inl T else if |err| / P < 1e-2 then .inr T else .inr g'
        | none => .inr g' : ℝ ⊕ ℝ) = .inl T := by
      intro g' h1 h2 h3
      obtain ⟨T, hT⟩ := hn g' lo hi h1 h2 h3
      refine ⟨T, ?_⟩
      rw [hT]
      simp only [abs_zero, zero_div]
      rw [if_pos (by norm_num)]
    by_cases hs : (ps lo - P) * (ps hi - P) < 0
    · have hlh : lo < hi := by
        by_contra hcon
        have h1 : ps hi ≤ ps lo := hmono.monotone (not_lt.mp hcon)
        have h2 : hi ≤ Tc := min_le_left _ _
        have h3 : 0.2 * Tc ≤ lo := le_max_right _ _
        rcases le_total (g * 0.5) (0.2 * Tc) with c1 | c1
        · have hlo : lo = 0.2 * Tc := max_eq_right c1
          rw [hlo] at hs h1
          nlinarith
        · have hlo : lo = g * 0.5 := max_eq_left c1
          have hgpos : 0 < g := by norm_num at c1; linarith
          rcases le_total Tc (g * 1.5) with c2 | c2
          · have hhi : hi = Tc := min_eq_left c2
            rw [hhi] at hs h1
            nlinarith
          · have hhi : hi = g * 1.5 := min_eq_right c2
            rw [hlo, hhi] at hcon
            norm_num at hcon
            linarith
      simp only [hs, if_true]
      split_ifs with hg
      · exact fin _ (by norm_num; linarith) (by norm_num; linarith) hs
      · push Not at hg
        exact fin _ hg.1 hg.2 hs
    · simp only [hs, if_false]
      have : (ps (0.2 * Tc) - P) * (ps Tc - P) < 0 := mul_neg_of_neg_of_pos (by linarith) (by linarith)
      obtain ⟨T, hT⟩ := Option.isSome_iff_exists.mp (hb _ _ this)
      refine ⟨T, ?_⟩
      rw [hT]
  obtain ⟨T, hT⟩ := key
  exact ⟨T, by simp only [tsat, hT], hT⟩

/-- **C139**: if the first part does not return, the result of the unbounded Newton on the fugacities is returned without any check;
and the check after the last one compares the error with the pressure for equality, so a result with any other error passes. -/
theorem C139_Tsat_fails (s : Solvers) (F : ℝ → ℝ) (Tc P g low high T : ℝ) :
    (s.newtonF g (Tc * 1e-5) none 100 = some T → tsat2 s F Tc P g low high = some T) ∧
      ((∀ lo hi n, n ≠ 200 → s.newtonF g lo hi n = none) → s.newtonF g low (some high) 200 = some T → |F T| ≠ P →
        tsat2 s F Tc P g low high = some T) := by
  constructor
  · intro h
    simp only [tsat2, h]
  · intro h1 h2 h3
    simp only [tsat2, h1 _ _ 100 (by norm_num), h1 _ _ 250 (by norm_num), Option.filter_none, h2, h3, if_false]

/-- The second and third attempts do reject results on their bounds. -/
theorem C139_Tsat_bounds (s : Solvers) (F : ℝ → ℝ) {Tc P g low high T : ℝ} (h0 : s.newtonF g (Tc * 1e-5) none 100 = none)
    (h4 : s.newtonF g low (some high) 200 = none) (h5 : s.brenthF low high = none) (h : tsat2 s F Tc P g low high = some T) :
    (s.newtonF g low (some high) 100 = some T ∧ T ≠ low ∧ T ≠ high) ∨
      (s.newtonF g low (some (high * 2)) 250 = some T ∧ T ≠ low ∧ T ≠ high * 2) := by
  unfold tsat2 at h
  simp only [h0, h4, h5] at h
  cases h2 : (s.newtonF g low (some high) 100).filter (fun T => decide (T ≠ low ∧ T ≠ high)) with
  | some t =>
    rw [h2] at h
    cases h
    rw [Option.filter_eq_some_iff] at h2
    exact .inl ⟨h2.1, of_decide_eq_true h2.2⟩
  | none =>
    rw [h2] at h
    dsimp only at h
    cases h3 : (s.newtonF g low (some (high * 2)) 250).filter (fun T => decide (T ≠ low ∧ T ≠ high * 2)) with
    | some t =>
      rw [h3] at h
      cases h
      rw [Option.filter_eq_some_iff] at h3
      exact .inr ⟨h3.1, of_decide_eq_true h3.2⟩
    | none =>
      rw [h3] at h
      cases h

/-- Solvers for a linear saturation pressure `T` with everything exact. -/
noncomputable def demoSolvers (P : ℝ) : Solvers where
  newtonP _ _ _ := some (P, 0)
  brenthP _ _ := some P
  newtonF _ _ _ n := if n = 250 then some 7 else none
  brenthF _ _ := none

/-- The hypotheses of `C139_Tsat`, `C139_Tsat_complete` and `C139_Tsat_bounds`. -/
example : SolversSound (demoSolvers 300) (fun T => some T) 300 ∧ StrictMono (fun T : ℝ => T) ∧ 0.2 * 500 < (300 : ℝ) ∧
    tsat2 (demoSolvers 300) (fun _ => 0) 500 300 1 2 3 = some 7 := by
  refine ⟨⟨?_, ?_⟩, fun _ _ h => h, by norm_num, ?_⟩
  · intro g lo hi T err h
    simp only [demoSolvers, Option.some.injEq, Prod.mk.injEq] at h
    exact ⟨T, rfl, by rw [← h.1, ← h.2]; ring⟩
  · intro lo hi T h
    simp only [demoSolvers, Option.some.injEq] at h
    rw [h]
  · norm_num [tsat2, demoSolvers, Option.filter]

end Verif.SatDrivers
