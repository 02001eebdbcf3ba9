import Mathlib.Data.Real.Basic
import Mathlib.Algebra.BigOperators.Fin
import Mathlib.Algebra.Order.BigOperators.Group.Finset
import Mathlib.Tactic.Ring
import Mathlib.Tactic.Linarith
import Mathlib.Tactic.FieldSimp
import Mathlib.Tactic.NormNum
import Mathlib.Tactic.Positivity
import Mathlib.Tactic.FinCases

/-!
# Flashes of mixtures with two or more phases (`thermo/flash/flash_vl.py` 655-680, 735-822, 903-1020, `flash_vln.py` 203-237, 281-619)

C95: what `FlashVL` and `FlashVLN` return, given what stability tests and sequential substitution give. These are modelled elsewhere
(C90, C92) and are data here, exceptions included. A composition is a function of the component.
-/

namespace Verif.MultiPhase

abbrev Comp (n : ℕ) := Fin n → ℝ

/-! ## Two phases: `flash_2P` (735-773) -/

/-- A phase of a result: whether it is of the type of the phase that was the more stable one, and its composition. -/
structure Ph (n : ℕ) where
  isMin : Bool
  zs : Comp n

/-- What sequential substitution gives: fraction, and compositions of the phases of the type of the stable and of the other phase. -/
inductive Sub (n : ℕ)
  | trivial
  | error
  | ok (V : ℝ) (xs ys : Comp n)

/-- A result: gas, liquids, fractions in the order gas, liquids. -/
structure Res (n : ℕ) where
  gas : Option (Ph n)
  liquids : List (Ph n)
  betas : List ℝ

/-- Phases in the order of fractions. -/
def Res.phases {n : ℕ} (r : Res n) : List (Ph n) := r.gas.toList ++ r.liquids

/-- The feed as a single phase (750, 762): the more stable one. -/
def onePhase {n : ℕ} (minLiquid : Bool) (zs : Comp n) : Res n :=
  if minLiquid then ⟨none, [⟨true, zs⟩], [1]⟩ else ⟨some ⟨true, zs⟩, [], [1]⟩

/-- Lines 764-773. -/
def assemble {n : ℕ} (minLiquid LL : Bool) (V : ℝ) (xs ys : Comp n) : Res n :=
  if LL then ⟨none, [⟨false, ys⟩, ⟨true, xs⟩], [V, 1 - V]⟩
  else if minLiquid then ⟨some ⟨false, ys⟩, [⟨true, xs⟩], [V, 1 - V]⟩
  else ⟨some ⟨true, xs⟩, [⟨false, ys⟩], [1 - V, 1 - (1 - V)]⟩

open Classical in
/-- `flash_2P`; `p` is `PT_SS_POLISH_VF`, `again` the second substitution started from a result, `none` an exception. -/
noncomputable def flash2P {n : ℕ} (p : ℝ) (polish minLiquid LL : Bool) (zs : Comp n) (first : Sub n)
    (again : ℝ → Comp n → Comp n → Sub n) : Option (Res n) :=
  match first with
  | .error => none
  | .trivial => some (onePhase minLiquid zs)
  | .ok V xs ys =>
    if V < p ∨ V > 1 - p then
      match (if (V > -p ∨ V > 1 + p) ∧ polish = true then again V xs ys else .ok V xs ys) with
      | .ok V' xs' ys' => if V' < 0 ∨ V' > 1 then some (onePhase minLiquid zs) else some (assemble minLiquid LL V' xs' ys')
      | _ => none
    else some (assemble minLiquid LL V xs ys)

/-- The fractions make up the feed from the phases. -/
def Balanced {n : ℕ} (zs : Comp n) (r : Res n) : Prop :=
  r.phases.length = r.betas.length ∧ (∀ b ∈ r.betas, 0 ≤ b ∧ b ≤ 1) ∧ r.betas.sum = 1
    ∧ ∀ i, (List.zipWith (fun b (q : Ph n) => b * q.zs i) r.betas r.phases).sum = zs i

/-- Substitution conserves each component (C90). -/
def Conserves {n : ℕ} (zs : Comp n) : Sub n → Prop
  | .ok V xs ys => ∀ i, (1 - V) * xs i + V * ys i = zs i
  | _ => True

theorem onePhase_balanced {n : ℕ} (m : Bool) (zs : Comp n) : Balanced zs (onePhase m zs) := by
  cases m <;> simp [Balanced, onePhase, Res.phases]

theorem assemble_balanced {n : ℕ} (m LL : Bool) (zs : Comp n) (V : ℝ) (xs ys : Comp n) (h0 : 0 ≤ V) (h1 : V ≤ 1)
    (h : ∀ i, (1 - V) * xs i + V * ys i = zs i) : Balanced zs (assemble m LL V xs ys) := by
  cases LL <;> cases m
  all_goals
    refine ⟨by simp [assemble, Res.phases], ?_, ?_, ?_⟩
    · intro b hb
      simp only [assemble, if_true, if_false, Bool.false_eq_true, List.mem_cons, List.not_mem_nil, or_false] at hb
      rcases hb with e | e <;> rw [e] <;> constructor <;> linarith
    · simp [assemble]
    · intro i
      have := h i
      simp [assemble, Res.phases]
      linarith

/-- **C95.** A result of `flash_2P` makes up the feed with fractions between zero and one that sum to one, whichever of the phases is the
gas, if substitution conserves components. -/
theorem C95_balance {n : ℕ} (p : ℝ) (polish m LL : Bool) (zs : Comp n) (first : Sub n) (again : ℝ → Comp n → Comp n → Sub n) (r : Res n)
    (hp : 0 ≤ p) (hf : Conserves zs first) (ha : ∀ V xs ys, Conserves zs (again V xs ys))
    (hr : flash2P p polish m LL zs first again = some r) : Balanced zs r := by
  unfold flash2P at hr
  cases first with
  | error => simp at hr
  | trivial =>
    simp only [Option.some.injEq] at hr
    rw [← hr]; exact onePhase_balanced m zs
  | ok V xs ys =>
    dsimp only at hr
    by_cases hV : V < p ∨ V > 1 - p
    · rw [if_pos hV] at hr
      have key : ∀ q : Sub n, Conserves zs q →
          (match q with
            | .ok V' xs' ys' => if V' < 0 ∨ V' > 1 then some (onePhase m zs) else some (assemble m LL V' xs' ys')
            | _ => none) = some r → Balanced zs r := by
        intro q hq h
        cases q with
        | error => simp at h
        | trivial => simp at h
        | ok V' xs' ys' =>
          dsimp only at h
          by_cases hc : V' < 0 ∨ V' > 1
          · rw [if_pos hc, Option.some.injEq] at h
            rw [← h]; exact onePhase_balanced m zs
          · rw [if_neg hc, Option.some.injEq] at h
            push Not at hc
            rw [← h]; exact assemble_balanced m LL zs V' xs' ys' hc.1 hc.2 hq
      refine key _ ?_ hr
      split_ifs
      · exact ha V xs ys
      · exact hf
    · rw [if_neg hV, Option.some.injEq] at hr
      push Not at hV
      rw [← hr]
      exact assemble_balanced m LL zs V xs ys (by linarith [hV.1]) (by linarith [hV.2]) hf

/-- **C95.** Of a result with gas and liquid, not requested as two liquids, the phase of the type of the more stable phase is a liquid
exactly if that was the liquid; and a single phase is of that type. -/
theorem C95_types {n : ℕ} (p : ℝ) (polish m : Bool) (zs : Comp n) (first : Sub n) (again : ℝ → Comp n → Comp n → Sub n) (r : Res n)
    (hr : flash2P p polish m false zs first again = some r) :
    (∀ g, r.gas = some g → g.isMin = !m) ∧ (∀ l ∈ r.liquids, l.isMin = m) := by
  have one : (∀ g, (onePhase m zs).gas = some g → g.isMin = !m) ∧ (∀ l ∈ (onePhase m zs).liquids, l.isMin = m) := by
    cases m <;> simp [onePhase]
  have two : ∀ V xs ys, (∀ g, (assemble m false V xs ys : Res n).gas = some g → g.isMin = !m)
      ∧ (∀ l ∈ (assemble m false V xs ys : Res n).liquids, l.isMin = m) := by
    intro V xs ys
    cases m <;> simp [assemble]
  unfold flash2P at hr
  cases first with
  | error => simp at hr
  | trivial =>
    simp only [Option.some.injEq] at hr
    rw [← hr]; exact one
  | ok V xs ys =>
    dsimp only at hr
    by_cases hV : V < p ∨ V > 1 - p
    · rw [if_pos hV] at hr
      cases hq : (if (V > -p ∨ V > 1 + p) ∧ polish = true then again V xs ys else .ok V xs ys) with
      | error => rw [hq] at hr; simp at hr
      | trivial => rw [hq] at hr; simp at hr
      | ok V' xs' ys' =>
        rw [hq] at hr
        dsimp only at hr
        by_cases hc : V' < 0 ∨ V' > 1
        · rw [if_pos hc, Option.some.injEq] at hr
          rw [← hr]; exact one
        · rw [if_neg hc, Option.some.injEq] at hr
          rw [← hr]; exact two _ _ _
    · rw [if_neg hV, Option.some.injEq] at hr
      rw [← hr]; exact two _ _ _

/-- A gas as the stable phase, and two phases. -/
example : flash2P (1 / 10 ^ 6) true false false (fun _ : Fin 1 => 1) (.ok (1 / 4) (fun _ => 1) (fun _ => 1)) (fun _ _ _ => .trivial)
      = some ⟨some ⟨true, fun _ => 1⟩, [⟨false, fun _ => 1⟩], [1 - 1 / 4, 1 - (1 - 1 / 4)]⟩
    ∧ Conserves (fun _ : Fin 1 => (1 : ℝ)) (.ok (1 / 4) (fun _ => 1) (fun _ => 1)) := by
  constructor
  · unfold flash2P
    dsimp only
    rw [if_neg (by norm_num)]
    simp [assemble]
  · intro i; norm_num

/-- **C95.** A fraction far below zero is taken as one phase without a second substitution. -/
theorem C95_far_below {n : ℕ} (p : ℝ) (polish m LL : Bool) (zs : Comp n) (V : ℝ) (xs ys : Comp n) (again : ℝ → Comp n → Comp n → Sub n)
    (hp : 0 < p) (hV : V ≤ -p) : flash2P p polish m LL zs (.ok V xs ys) again = some (onePhase m zs) := by
  unfold flash2P
  dsimp only
  rw [if_pos (Or.inl (by linarith)), if_neg (by rintro ⟨h | h, _⟩ <;> linarith)]
  dsimp only
  rw [if_pos (Or.inl (by linarith))]

/-- **C95 fails.** A fraction far above one is not: substitution is repeated, and if it then ends in a trivial solution, this is not
caught, so that there is an exception instead of a single phase. -/
theorem C95_far_above_fails : ∃ (p V : ℝ), 0 < p ∧ 1 + p < V
    ∧ flash2P p true true false (fun _ : Fin 1 => 1) (.ok V (fun _ => 1) (fun _ => 1)) (fun _ _ _ => .trivial) = none
    ∧ flash2P p true true false (fun _ : Fin 1 => 1) .trivial (fun _ _ _ => .trivial) = some (onePhase true fun _ => 1) := by
  refine ⟨1 / 10, 5, by norm_num, by norm_num, ?_, rfl⟩
  unfold flash2P
  dsimp only
  rw [if_pos (by norm_num), if_pos ⟨by norm_num, rfl⟩]

/-! ### `flash_TP_stability_test` (662-680) -/

open Classical in
/-- Whether the liquid is the more stable phase; `labelL` is whether the phase label of the liquid is `l`. -/
noncomputable def minIsLiquid (Gl Gg : ℝ) (labelL : Bool) : Bool :=
  if Gl < Gg then true else if Gl = Gg then labelL else false

open Classical in
/-- Lines 675-680. -/
noncomputable def flashTP {n : ℕ} (Gl Gg : ℝ) (labelL stable : Bool) (zs : Comp n) (two : Bool → Option (Res n)) : Option (Res n) :=
  if stable then some (onePhase (minIsLiquid Gl Gg labelL) zs) else two (minIsLiquid Gl Gg labelL)

/-- **C95.** A feed found stable is returned as one phase with the lower Gibbs energy; with equal energies as a liquid if labelled as one. -/
theorem C95_stable {n : ℕ} (Gl Gg : ℝ) (labelL : Bool) (zs : Comp n) (two : Bool → Option (Res n)) :
    (Gl < Gg → flashTP Gl Gg labelL true zs two = some ⟨none, [⟨true, zs⟩], [1]⟩)
      ∧ (Gg < Gl → flashTP Gl Gg labelL true zs two = some ⟨some ⟨true, zs⟩, [], [1]⟩)
      ∧ (Gl = Gg → flashTP Gl Gg labelL true zs two = some (onePhase labelL zs)) := by
  refine ⟨fun h => ?_, fun h => ?_, fun h => ?_⟩
  · simp [flashTP, minIsLiquid, h, onePhase]
  · simp [flashTP, minIsLiquid, h.le, h.ne', onePhase]
  · simp [flashTP, minIsLiquid, h, onePhase]

example : flashTP 1 2 false true (fun _ : Fin 1 => 1) (fun _ => none) = some ⟨none, [⟨true, fun _ => 1⟩], [1]⟩ :=
  (C95_stable 1 2 false _ _).1 (by norm_num)

/-! ### Starting from another result (804-819) -/

open Classical in
/-- The hot start; `none` is followed by the usual method. -/
noncomputable def hotStart {n : ℕ} : Sub n → Option (Res n)
  | .ok V xs ys => if 0 ≤ V ∧ V ≤ 1 then some ⟨some ⟨false, ys⟩, [⟨true, xs⟩], [V, 1 - V]⟩ else none
  | _ => none

/-- **C95.** What is returned from a hot start makes up the feed. -/
theorem C95_hot {n : ℕ} (zs : Comp n) (s : Sub n) (hs : Conserves zs s) (r : Res n) (h : hotStart s = some r) : Balanced zs r := by
  cases s with
  | trivial => simp [hotStart] at h
  | error => simp [hotStart] at h
  | ok V xs ys =>
    unfold hotStart at h
    dsimp only at h
    by_cases hc : 0 ≤ V ∧ V ≤ 1
    · rw [if_pos hc, Option.some.injEq] at h
      rw [← h]
      exact assemble_balanced true false zs V xs ys hc.1 hc.2 hs
    · rw [if_neg hc] at h; simp at h

example : hotStart (.ok (1 / 2) (fun _ : Fin 1 => 1) (fun _ => 1))
    = some ⟨some ⟨false, fun _ => 1⟩, [⟨true, fun _ => 1⟩], [1 / 2, 1 - 1 / 2]⟩ := by
  unfold hotStart
  dsimp only
  rw [if_pos (by norm_num)]

/-! ## Bounds of the iteration variable (903-922, 929, 966, 1017-1019) -/

/-- Iteration variable. -/
inductive Var
  | T
  | P
  | V
deriving DecidableEq

/-- `bounds_PT_HSGUA` without CoolProp phases. -/
noncomputable def boundsOf : Var → ℝ × ℝ
  | .T => (1 / 1000, 10000)
  | .P => (1 / 100 * (1 - 1 / 10 ^ 12), 10 ^ 9 * (1 + 1 / 10 ^ 12))
  | .V => (1 / 10 ^ 9, 10 ^ 9)

/-- Lines 929 and 966: called without argument. -/
noncomputable def boundsUsed (_iter : Var) : ℝ × ℝ := boundsOf .T

/-- **C95.** For temperature the bounds used are those of temperature. -/
theorem C95_bounds_partial : boundsUsed .T = boundsOf .T := rfl

/-- **C95 fails.** For pressure and volume they are those of temperature too: atmospheric pressure, which the bounds of pressure
allow, is beyond those used, and so are volumes of liquids. -/
theorem C95_bounds_fails : ((boundsOf .P).1 ≤ 101325 ∧ 101325 ≤ (boundsOf .P).2 ∧ ¬ 101325 ≤ (boundsUsed .P).2)
    ∧ ((boundsOf .V).1 ≤ 18 / 10 ^ 6 ∧ (18 : ℝ) / 10 ^ 6 ≤ (boundsOf .V).2 ∧ ¬ (boundsUsed .V).1 ≤ 18 / 10 ^ 6) := by
  unfold boundsUsed boundsOf
  norm_num

/-! ## The least of several solutions (`flash_vln.py` 209-218, 227-236, 373-384) -/

open Classical in
/-- A loop that keeps what has a strictly lower value, starting with nothing and `1e100`. `none` is a failure. -/
noncomputable def leastLoop {α : Type} (G : α → ℝ) : List (Option α) → Option α → Option α
  | [], b => b
  | none :: xs, b => leastLoop G xs b
  | some x :: xs, none => leastLoop G xs (if G x < 10 ^ 100 then some x else none)
  | some x :: xs, some b => leastLoop G xs (if G x < G b then some x else some b)

theorem least_spec {α : Type} (G : α → ℝ) (xs : List (Option α)) (b : Option α) (hG : ∀ x, some x ∈ xs → G x < 10 ^ 100) :
    (∀ x, some x ∈ b :: xs → ∃ r, leastLoop G xs b = some r ∧ G r ≤ G x) ∧ (∀ r, leastLoop G xs b = some r → some r ∈ b :: xs) := by
  induction xs generalizing b with
  | nil =>
    simp only [leastLoop]
    refine ⟨fun x hx => ⟨x, by simpa [eq_comm] using hx, le_rfl⟩, fun r hr => by simp [hr]⟩
  | cons a as ih =>
    have hG' : ∀ x, some x ∈ as → G x < 10 ^ 100 := fun x hx => hG x (by simp [hx])
    cases a with
    | none =>
      obtain ⟨h1, h2⟩ := ih b hG'
      simp only [leastLoop]
      refine ⟨fun x hx => h1 x (by simpa using hx), fun r hr => ?_⟩
      have := h2 r hr
      simp only [List.mem_cons] at this ⊢
      tauto
    | some a =>
      obtain ⟨a1, a2⟩ := ih (some a) hG'
      cases b with
      | none =>
        rw [leastLoop, if_pos (hG a (by simp))]
        refine ⟨fun x hx => a1 x (by simpa using hx), fun r hr => ?_⟩
        have := a2 r hr
        simp only [List.mem_cons] at this ⊢
        tauto
      | some b =>
        obtain ⟨b1, b2⟩ := ih (some b) hG'
        rw [leastLoop]
        by_cases hlt : G a < G b
        · rw [if_pos hlt]
          refine ⟨fun x hx => ?_, fun r hr => ?_⟩
          · simp only [List.mem_cons, Option.some.injEq] at hx
            rcases hx with hx | hx | hx
            · obtain ⟨r, hr, hra⟩ := a1 a (by simp)
              exact ⟨r, hr, by rw [hx]; linarith⟩
            · exact a1 x (by simp [hx])
            · exact a1 x (by simp [hx])
          · have := a2 r hr
            simp only [List.mem_cons] at this ⊢
            tauto
        · rw [if_neg hlt]
          refine ⟨fun x hx => ?_, fun r hr => ?_⟩
          · simp only [List.mem_cons, Option.some.injEq] at hx
            rcases hx with hx | hx | hx
            · exact b1 x (by simp [hx])
            · obtain ⟨r, hr, hrb⟩ := b1 b (by simp)
              exact ⟨r, hr, by rw [hx]; linarith⟩
            · exact b1 x (by simp [hx])
          · have := b2 r hr
            simp only [List.mem_cons] at this ⊢
            tauto

/-- A solution at given vapor fraction: molar Gibbs energies of liquid and gas. -/
structure VFSol where
  (Gl Gg : ℝ)

/-- Line 213, 231. -/
noncomputable def VFSol.G (VF : ℝ) (s : VFSol) : ℝ := s.Gl * (1 - VF) + s.Gg * VF

/-- `flash_TVF` and `flash_PVF` with several liquids. -/
noncomputable def flashVF (VF : ℝ) (sols : List (Option VFSol)) : Option VFSol := leastLoop (VFSol.G VF) sols none

/-- **C95.** At given vapor fraction the solution among those of all liquids with the least Gibbs energy is returned. -/
theorem C95_VF (VF : ℝ) (sols : List (Option VFSol)) (hG : ∀ s, some s ∈ sols → s.Gl * (1 - VF) + s.Gg * VF < 10 ^ 100) :
    ∀ s, some s ∈ sols → ∃ r, flashVF VF sols = some r ∧ some r ∈ sols
      ∧ r.Gl * (1 - VF) + r.Gg * VF ≤ s.Gl * (1 - VF) + s.Gg * VF := by
  intro s hs
  obtain ⟨h1, h2⟩ := least_spec (VFSol.G VF) sols none hG
  obtain ⟨r, hr, hle⟩ := h1 s (by simp [hs])
  have := h2 r hr
  exact ⟨r, hr, by simpa using this, hle⟩

/-- The second of three liquids, of which the first has no solution. -/
example : flashVF (1 / 2) [none, some ⟨-3, -1⟩, some ⟨-1, -1⟩] = some ⟨-3, -1⟩ := by
  unfold flashVF
  rw [leastLoop, leastLoop, if_pos (by norm_num [VFSol.G]), leastLoop, if_neg (by norm_num [VFSol.G]), leastLoop]

/-- **C95 fails.** If there is no solution for any liquid, the errors are lost and `None` is returned, which the caller cannot unpack. -/
theorem C95_VF_fails (VF : ℝ) (k : ℕ) : flashVF VF (List.replicate k none) = none := by
  unfold flashVF
  induction k with
  | zero => rfl
  | succ k ih => rw [List.replicate_succ, leastLoop]; exact ih

/-! ## K values independent of composition (306-337) -/

/-- The Rachford-Rice function. -/
noncomputable def rr {n : ℕ} (zs K : Comp n) (V : ℝ) : ℝ := ∑ i, zs i * (K i - 1) / (1 + V * (K i - 1))

open Classical in
/-- Lines 330-337. -/
noncomputable def byFraction {n : ℕ} (zs xs ys : Comp n) (VF : ℝ) : Res n :=
  if VF > 1 then ⟨none, [⟨false, zs⟩], [1]⟩
  else if VF < 0 then ⟨none, [⟨true, zs⟩], [1]⟩
  else ⟨some ⟨false, ys⟩, [⟨true, xs⟩], [VF, 1 - VF]⟩

theorem rr_term {z k V W : ℝ} (hz : 0 ≤ z) (hV : 0 < 1 + V * (k - 1)) (hW : 0 < 1 + W * (k - 1)) (h : V ≤ W) :
    z * (k - 1) / (1 + W * (k - 1)) ≤ z * (k - 1) / (1 + V * (k - 1)) := by
  rw [div_le_div_iff₀ hW hV]
  nlinarith [mul_nonneg (mul_nonneg hz (sq_nonneg (k - 1))) (sub_nonneg.2 h)]

theorem rr_term_lt {z k V W : ℝ} (hz : 0 < z) (hk : k ≠ 1) (hV : 0 < 1 + V * (k - 1)) (hW : 0 < 1 + W * (k - 1)) (h : V < W) :
    z * (k - 1) / (1 + W * (k - 1)) < z * (k - 1) / (1 + V * (k - 1)) := by
  rw [div_lt_div_iff₀ hW hV]
  have : 0 < (k - 1) ^ 2 := by
    have := sub_ne_zero.2 hk
    positivity
  nlinarith [mul_pos (mul_pos hz this) (sub_pos.2 h)]

theorem rr_lt {n : ℕ} {zs K : Comp n} {V W : ℝ} (hz : ∀ i, 0 ≤ zs i) (hV : ∀ i, 0 < 1 + V * (K i - 1)) (hW : ∀ i, 0 < 1 + W * (K i - 1))
    (h : V < W) (hk : ∃ i, 0 < zs i ∧ K i ≠ 1) : rr zs K W < rr zs K V := by
  obtain ⟨j, hj, hkj⟩ := hk
  exact Finset.sum_lt_sum (fun i _ => rr_term (hz i) (hV i) (hW i) h.le) ⟨j, Finset.mem_univ j, rr_term_lt hj hkj (hV j) (hW j) h⟩

/-- **C95.** With K values independent of composition a fraction above one from the Rachford-Rice equation means that `∑ z / K < 1`, and
one below zero that `∑ z K < 1`: no liquid, or no vapor, can form, and the single phase returned is right. Otherwise the
phases make up the feed. -/
theorem C95_K {n : ℕ} (zs K : Comp n) (VF : ℝ) (hz : ∀ i, 0 ≤ zs i) (hsum : ∑ i, zs i = 1) (hK : ∀ i, 0 < K i)
    (hk : ∃ i, 0 < zs i ∧ K i ≠ 1) (hV : ∀ i, 0 < 1 + VF * (K i - 1)) (hroot : rr zs K VF = 0) :
    (1 < VF → ∑ i, zs i / K i < 1
        ∧ byFraction zs (fun i => zs i / (1 + VF * (K i - 1))) (fun i => K i * (zs i / (1 + VF * (K i - 1)))) VF = ⟨none, [⟨false, zs⟩], [1]⟩)
      ∧ (VF < 0 → ∑ i, zs i * K i < 1
        ∧ byFraction zs (fun i => zs i / (1 + VF * (K i - 1))) (fun i => K i * (zs i / (1 + VF * (K i - 1)))) VF = ⟨none, [⟨true, zs⟩], [1]⟩)
      ∧ Balanced zs (byFraction zs (fun i => zs i / (1 + VF * (K i - 1))) (fun i => K i * (zs i / (1 + VF * (K i - 1)))) VF) := by
  refine ⟨fun h => ⟨?_, ?_⟩, fun h => ⟨?_, ?_⟩, ?_⟩
  · have h1 := rr_lt (V := 1) hz (fun i => by have := hK i; linarith) hV h hk
    rw [hroot] at h1
    have h2 : rr zs K 1 = ∑ i, zs i - ∑ i, zs i / K i := by
      unfold rr
      rw [← Finset.sum_sub_distrib]
      refine Finset.sum_congr rfl fun i _ => ?_
      have := (hK i).ne'
      rw [show 1 + 1 * (K i - 1) = K i by ring]
      field_simp
    linarith
  · unfold byFraction; rw [if_pos h]
  · have h1 := rr_lt (W := 0) hz hV (fun i => by norm_num) h hk
    rw [hroot] at h1
    have h2 : rr zs K 0 = ∑ i, zs i * K i - ∑ i, zs i := by
      unfold rr
      rw [← Finset.sum_sub_distrib]
      refine Finset.sum_congr rfl fun i _ => ?_
      simp
      ring
    linarith
  · unfold byFraction; rw [if_neg (by linarith), if_pos h]
  · unfold byFraction
    split_ifs with h1 h2
    · simp [Balanced, Res.phases]
    · simp [Balanced, Res.phases]
    · refine assemble_balanced true false zs VF _ _ (not_lt.1 h2) (not_lt.1 h1) fun i => ?_
      have := (hV i).ne'
      have e : (1 - VF) * (zs i / (1 + VF * (K i - 1))) + VF * (K i * (zs i / (1 + VF * (K i - 1))))
          = (1 + VF * (K i - 1)) * (zs i / (1 + VF * (K i - 1))) := by ring
      rw [e, mul_div_cancel₀ _ this]

/-- An equimolar feed with K values 2 and 1/2. -/
example : rr ![1 / 2, 1 / 2] ![2, 1 / 2] (1 / 2) = 0 ∧ ∀ i, 0 < 1 + (1 / 2 : ℝ) * ((![2, 1 / 2] : Comp 2) i - 1) := by
  constructor
  · simp [rr, Fin.sum_univ_two]; norm_num
  · intro i; fin_cases i <;> norm_num

/-! ## More phases (373-619) -/

/-- A solution: fraction and molar Gibbs energy of each phase. -/
abbrev Sln := List (ℝ × ℝ)

/-- Gibbs energy. -/
noncomputable def energy (s : Sln) : ℝ := (s.map fun q => q.1 * q.2).sum

/-- Fractions between zero and one (523-526). -/
def Good (s : Sln) : Prop := ∀ q ∈ s, 0 ≤ q.1 ∧ q.1 ≤ 1

/-- The repeated substitution with two liquids (541-562). -/
inductive Retry
  | ok (s : Sln)
  | caught
  | unconverged

/-- What is found on the way. `more` is the result for each further liquid: `none` if it is stable or fails. -/
structure Found where
  (N maxLiquids maxPhases : ℕ)
  one : Sln
  vl : Option Sln
  ll : Option Sln
  checks : List Sln
  stable : Bool
  three : Option Sln
  retry : Retry
  more : List (Option Sln)

/-- Line 395. -/
def Found.VL (f : Found) : Prop := f.vl ≠ none
/-- Lines 403-414. -/
def Found.LL (f : Found) : Prop := f.vl = none ∧ 1 < f.maxLiquids ∧ f.ll ≠ none

open Classical in
/-- `found_phases`, `found_betas` (392-419). -/
noncomputable def Found.start (f : Found) : Sln :=
  match f.vl with
  | some s => s
  | none => if 1 < f.maxLiquids then (match f.ll with
    | some s => s
    | none => f.one) else f.one

open Classical in
/-- The double check (438-458). -/
noncomputable def bestOf : List Sln → Sln → Sln
  | [], b => b
  | c :: cs, b => bestOf cs (if energy c < energy b then c else b)

/-- `sln_2P` after the double check, with energy `G_2P`. -/
noncomputable def Found.best (f : Found) : Sln := bestOf f.checks f.start

/-- The loop over further liquids (582-618). -/
def moreLoop (maxPhases maxLiquids : ℕ) : List (Option Sln) → ℕ → Sln → Sln
  | [], _, s => s
  | x :: xs, k, s =>
    if s.length < maxPhases ∧ k < maxLiquids then
      match x with
      | none => moreLoop maxPhases maxLiquids xs (k + 1) s
      | some s' => if maxPhases = s'.length then s' else moreLoop maxPhases maxLiquids xs (k + 1) s'
    else s

open Classical in
/-- Lines 538-570. -/
noncomputable def Found.failed3 (f : Found) : Option Sln :=
  if f.VL then
    match f.retry with
    | .ok s => if energy s < energy f.best then some s else some f.best
    | .caught => some f.best
    | .unconverged => none
  else some f.best

open Classical in
/-- Lines 462-619; `none` is an exception. -/
noncomputable def Found.result (f : Found) : Option Sln :=
  if (f.LL ∧ f.maxLiquids = 2) ∨ (f.VL ∧ f.maxLiquids = 1) ∨ (f.N < 3 ∧ (f.VL ∨ f.LL)) then
    if energy f.best < energy f.one then some f.best else some f.one
  else if ¬ f.LL ∧ ¬ f.VL then some f.one
  else if f.N < 3 then some f.best
  else if f.stable = true then some f.best
  else match f.three with
    | none => f.failed3
    | some s =>
      if f.maxPhases = 3 ∧ Good s then (if energy f.best < energy s then f.failed3 else some s)
      else if ¬ Good s ∨ energy s > energy f.best then f.failed3
      else if f.N = 3 then some s
      else some (moreLoop f.maxPhases f.maxLiquids f.more 2 s)

theorem bestOf_spec (cs : List Sln) (b : Sln) :
    energy (bestOf cs b) ≤ energy b ∧ (∀ c ∈ cs, energy (bestOf cs b) ≤ energy c) ∧ bestOf cs b ∈ b :: cs := by
  induction cs generalizing b with
  | nil => simp [bestOf]
  | cons a as ih =>
    unfold bestOf
    by_cases h : energy a < energy b
    · rw [if_pos h]
      obtain ⟨h1, h2, h3⟩ := ih a
      refine ⟨h1.trans h.le, fun c hc => ?_, ?_⟩
      · rcases List.mem_cons.1 hc with e | e
        · rw [e]; exact h1
        · exact h2 c e
      · simp only [List.mem_cons] at h3 ⊢; tauto
    · rw [if_neg h]
      obtain ⟨h1, h2, h3⟩ := ih b
      refine ⟨h1, fun c hc => ?_, ?_⟩
      · rcases List.mem_cons.1 hc with e | e
        · rw [e]; exact h1.trans (not_lt.1 h)
        · exact h2 c e
      · simp only [List.mem_cons] at h3 ⊢; tauto

/-- **C95.** After the double check the two phase solution is one of those found, and has the least Gibbs energy of them. -/
theorem C95_double_check (f : Found) :
    energy f.best ≤ energy f.start ∧ (∀ c ∈ f.checks, energy f.best ≤ energy c) ∧ f.best ∈ f.start :: f.checks :=
  bestOf_spec f.checks f.start

theorem failed3_le (f : Found) (r : Sln) (h : f.failed3 = some r) : energy r ≤ energy f.best := by
  unfold Found.failed3 at h
  by_cases hv : f.VL
  · rw [if_pos hv] at h
    cases hr : f.retry with
    | ok s =>
      rw [hr] at h
      dsimp only at h
      by_cases hlt : energy s < energy f.best
      · rw [if_pos hlt, Option.some.injEq] at h
        rw [← h]; exact hlt.le
      · rw [if_neg hlt, Option.some.injEq] at h
        rw [← h]
    | caught =>
      rw [hr] at h
      simp only [Option.some.injEq] at h
      rw [← h]
    | unconverged => rw [hr] at h; simp at h
  · rw [if_neg hv, Option.some.injEq] at h
    rw [← h]

theorem start_one (f : Found) (h : ¬ f.LL ∧ ¬ f.VL) : f.start = f.one := by
  obtain ⟨hl, hv⟩ := h
  have hv' : f.vl = none := by
    by_contra hc; exact hv hc
  unfold Found.start
  rw [hv']
  dsimp only
  by_cases hm : 1 < f.maxLiquids
  · rw [if_pos hm]
    have : f.ll = none := by
      by_contra hc; exact hl ⟨hv', hm, hc⟩
    rw [this]
  · rw [if_neg hm]

/-- **C95.** With at most three components or three phases the result has at most the Gibbs energy of the first solution found. -/
theorem C95_energy_partial (f : Found) (r : Sln) (hN : f.N ≤ 3 ∨ f.maxPhases = 3) (h : f.result = some r) : energy r ≤ energy f.start := by
  have hb := (C95_double_check f).1
  unfold Found.result at h
  by_cases h1 : (f.LL ∧ f.maxLiquids = 2) ∨ (f.VL ∧ f.maxLiquids = 1) ∨ (f.N < 3 ∧ (f.VL ∨ f.LL))
  · rw [if_pos h1] at h
    by_cases hlt : energy f.best < energy f.one
    · rw [if_pos hlt, Option.some.injEq] at h
      rw [← h]; exact hb
    · rw [if_neg hlt, Option.some.injEq] at h
      rw [← h]; exact (not_lt.1 hlt).trans hb
  rw [if_neg h1] at h
  by_cases h2 : ¬ f.LL ∧ ¬ f.VL
  · rw [if_pos h2, Option.some.injEq] at h
    rw [← h, start_one f h2]
  rw [if_neg h2] at h
  by_cases h3 : f.N < 3
  · rw [if_pos h3, Option.some.injEq] at h
    rw [← h]; exact hb
  rw [if_neg h3] at h
  by_cases h4 : f.stable = true
  · rw [if_pos h4, Option.some.injEq] at h
    rw [← h]; exact hb
  rw [if_neg h4] at h
  cases ht : f.three with
  | none =>
    rw [ht] at h
    exact (failed3_le f r h).trans hb
  | some s =>
    rw [ht] at h
    dsimp only at h
    by_cases h5 : f.maxPhases = 3 ∧ Good s
    · rw [if_pos h5] at h
      by_cases h6 : energy f.best < energy s
      · rw [if_pos h6] at h
        exact (failed3_le f r h).trans hb
      · rw [if_neg h6, Option.some.injEq] at h
        rw [← h]; exact (not_lt.1 h6).trans hb
    rw [if_neg h5] at h
    by_cases h6 : ¬ Good s ∨ energy s > energy f.best
    · rw [if_pos h6] at h
      exact (failed3_le f r h).trans hb
    rw [if_neg h6] at h
    push Not at h6
    by_cases h7 : f.N = 3
    · rw [if_pos h7, Option.some.injEq] at h
      rw [← h]; exact h6.2.trans hb
    · rcases hN with hN | hN
      · omega
      · exact absurd ⟨hN, h6.1⟩ h5

/-- **C95.** With one or two components, with one liquid and a gas, or with two liquids without gas, the result has the least Gibbs energy
of one phase, of the first solution and of all of the double check. -/
theorem C95_energy_two (f : Found) (r : Sln)
    (hc : (f.LL ∧ f.maxLiquids = 2) ∨ (f.VL ∧ f.maxLiquids = 1) ∨ (f.N < 3 ∧ (f.VL ∨ f.LL))) (h : f.result = some r) :
    energy r ≤ energy f.one ∧ energy r ≤ energy f.start ∧ ∀ c ∈ f.checks, energy r ≤ energy c := by
  obtain ⟨b1, b2, _⟩ := C95_double_check f
  unfold Found.result at h
  rw [if_pos hc] at h
  by_cases hlt : energy f.best < energy f.one
  · rw [if_pos hlt, Option.some.injEq] at h
    rw [← h]; exact ⟨hlt.le, b1, b2⟩
  · rw [if_neg hlt, Option.some.injEq] at h
    rw [← h]
    have := not_lt.1 hlt
    exact ⟨le_rfl, this.trans b1, fun c hc => this.trans (b2 c hc)⟩

/-- A gas and a liquid with lower energy than one phase; three phases with still lower energy. -/
example : (Found.mk 2 1 2 [(1, -1)] (some [(1 / 2, -2), (1 / 2, -1)]) none [] true none .caught []).result = some [(1 / 2, -2), (1 / 2, -1)] := by
  unfold Found.result
  rw [if_pos (by right; left; simp [Found.VL]), if_pos (by norm_num [Found.best, bestOf, Found.start, energy])]
  simp [Found.best, bestOf, Found.start]

/-- **C95.** Results with three phases at most have fractions between zero and one, except those of the repeated substitution. -/
theorem C95_fractions_partial (f : Found) (r : Sln) (hN : f.N ≤ 3 ∨ f.maxPhases = 3) (h1 : Good f.one) (hs : Good f.start)
    (hc : ∀ c ∈ f.checks, Good c) (h : f.result = some r) : Good r ∨ f.retry = .ok r := by
  have hb : Good f.best := by
    have := (C95_double_check f).2.2
    rcases List.mem_cons.1 this with e | e
    · rw [e]; exact hs
    · exact hc _ e
  have hf : ∀ r, f.failed3 = some r → Good r ∨ f.retry = .ok r := by
    intro r h
    unfold Found.failed3 at h
    by_cases hv : f.VL
    · rw [if_pos hv] at h
      cases hr : f.retry with
      | ok s =>
        rw [hr] at h
        dsimp only at h
        by_cases hlt : energy s < energy f.best
        · rw [if_pos hlt, Option.some.injEq] at h
          right; rw [h]
        · rw [if_neg hlt, Option.some.injEq] at h
          left; rw [← h]; exact hb
      | caught =>
        rw [hr] at h
        simp only [Option.some.injEq] at h
        left; rw [← h]; exact hb
      | unconverged => rw [hr] at h; simp at h
    · rw [if_neg hv, Option.some.injEq] at h
      left; rw [← h]; exact hb
  unfold Found.result at h
  by_cases a1 : (f.LL ∧ f.maxLiquids = 2) ∨ (f.VL ∧ f.maxLiquids = 1) ∨ (f.N < 3 ∧ (f.VL ∨ f.LL))
  · rw [if_pos a1] at h
    by_cases hlt : energy f.best < energy f.one
    · rw [if_pos hlt, Option.some.injEq] at h; left; rw [← h]; exact hb
    · rw [if_neg hlt, Option.some.injEq] at h; left; rw [← h]; exact h1
  rw [if_neg a1] at h
  by_cases a2 : ¬ f.LL ∧ ¬ f.VL
  · rw [if_pos a2, Option.some.injEq] at h; left; rw [← h]; exact h1
  rw [if_neg a2] at h
  by_cases a3 : f.N < 3
  · rw [if_pos a3, Option.some.injEq] at h; left; rw [← h]; exact hb
  rw [if_neg a3] at h
  by_cases a4 : f.stable = true
  · rw [if_pos a4, Option.some.injEq] at h; left; rw [← h]; exact hb
  rw [if_neg a4] at h
  cases ht : f.three with
  | none => rw [ht] at h; exact hf r h
  | some s =>
    rw [ht] at h
    dsimp only at h
    by_cases h5 : f.maxPhases = 3 ∧ Good s
    · rw [if_pos h5] at h
      by_cases h6 : energy f.best < energy s
      · rw [if_pos h6] at h; exact hf r h
      · rw [if_neg h6, Option.some.injEq] at h
        left; rw [← h]; exact h5.2
    rw [if_neg h5] at h
    by_cases h6 : ¬ Good s ∨ energy s > energy f.best
    · rw [if_pos h6] at h; exact hf r h
    rw [if_neg h6] at h
    push Not at h6
    by_cases h7 : f.N = 3
    · rw [if_pos h7, Option.some.injEq] at h
      left; rw [← h]; exact h6.1
    · rcases hN with hN | hN
      · omega
      · exact absurd ⟨hN, h6.1⟩ h5

/-- **C95.** The branch 471-475 cannot be reached. -/
theorem C95_dead (f : Found) (h1 : ¬ ((f.LL ∧ f.maxLiquids = 2) ∨ (f.VL ∧ f.maxLiquids = 1) ∨ (f.N < 3 ∧ (f.VL ∨ f.LL))))
    (h2 : ¬ (¬ f.LL ∧ ¬ f.VL)) : ¬ f.N < 3 := by
  intro h3
  apply h1
  right; right
  refine ⟨h3, ?_⟩
  by_contra hc
  push Not at hc
  exact h2 ⟨hc.2, hc.1⟩

/-- **C95 fails.** If the stability tests find no second phase but the double check does, with lower Gibbs energy, this is discarded: one
phase is returned. -/
theorem C95_double_check_fails : ∃ f : Found, ∃ c ∈ f.checks, Good c ∧ f.best = c ∧ energy c < energy f.one ∧ f.result = some f.one := by
  refine ⟨⟨2, 1, 2, [(1, -1)], none, none, [[(1 / 2, -2), (1 / 2, -1)]], true, none, .caught, []⟩, [(1 / 2, -2), (1 / 2, -1)], by simp,
    ?_, ?_, ?_, ?_⟩
  · intro q hq
    simp only [List.mem_cons, List.not_mem_nil, or_false] at hq
    rcases hq with e | e <;> rw [e] <;> norm_num
  · rw [Found.best, start_one _ (by simp [Found.VL, Found.LL]), bestOf, bestOf, if_pos (by norm_num [energy])]
  · norm_num [energy]
  · unfold Found.result
    rw [if_neg (by simp [Found.VL, Found.LL]), if_pos (by simp [Found.VL, Found.LL])]

/-- **C95 fails.** With three components, a gas and two liquids a stable two phase solution is returned without comparing with one phase,
which may have lower Gibbs energy. -/
theorem C95_stable_fails : ∃ f : Found, f.stable = true ∧ ∃ r, f.result = some r ∧ energy f.one < energy r := by
  refine ⟨⟨3, 2, 3, [(1, -2)], some [(1 / 2, -1), (1 / 2, -1)], none, [], true, none, .caught, []⟩, rfl, [(1 / 2, -1), (1 / 2, -1)], ?_, ?_⟩
  · unfold Found.result
    rw [if_neg (by simp [Found.VL, Found.LL]), if_neg (by simp [Found.VL, Found.LL]), if_neg (by norm_num), if_pos rfl]
    simp [Found.best, bestOf, Found.start]
  · norm_num [energy]

/-- **C95 fails.** After a failure with three phases substitution is repeated with two liquids, and its result is returned if its Gibbs
energy is lower, even if a fraction is negative. -/
theorem C95_retry_fails : ∃ f : Found, Good f.start ∧ ∃ r, f.result = some r ∧ (r.map Prod.fst).sum = 1 ∧ ∃ q ∈ r, q.1 < 0 := by
  refine ⟨⟨3, 2, 3, [(1, -1)], some [(1 / 2, -2), (1 / 2, -1)], none, [], false, none, .ok [(-1 / 2, -1), (3 / 2, -2)], []⟩, ?_,
    [(-1 / 2, -1), (3 / 2, -2)], ?_, ?_, (-1 / 2, -1), by simp, by norm_num⟩
  · intro q hq
    simp only [Found.start, List.mem_cons, List.not_mem_nil, or_false] at hq
    rcases hq with e | e <;> rw [e] <;> norm_num
  · unfold Found.result
    rw [if_neg (by simp [Found.VL, Found.LL]), if_neg (by simp [Found.VL, Found.LL]), if_neg (by norm_num), if_neg (by simp)]
    dsimp only
    unfold Found.failed3
    rw [if_pos (by simp [Found.VL])]
    dsimp only
    rw [if_pos (by norm_num [Found.best, bestOf, Found.start, energy])]
  · norm_num

/-- **C95 fails.** If this substitution does not converge, the exception is not caught, although a two phase solution was found. -/
theorem C95_retry_error_fails : ∃ f : Found, f.VL ∧ Good f.best ∧ energy f.best < energy f.one ∧ f.result = none := by
  refine ⟨⟨3, 2, 3, [(1, -1)], some [(1 / 2, -2), (1 / 2, -1)], none, [], false, none, .unconverged, []⟩, by simp [Found.VL], ?_, ?_, ?_⟩
  · intro q hq
    simp only [Found.best, bestOf, Found.start, List.mem_cons, List.not_mem_nil, or_false] at hq
    rcases hq with e | e <;> rw [e] <;> norm_num
  · norm_num [Found.best, bestOf, Found.start, energy]
  · unfold Found.result
    rw [if_neg (by simp [Found.VL, Found.LL]), if_neg (by simp [Found.VL, Found.LL]), if_neg (by norm_num), if_neg (by simp)]
    dsimp only
    unfold Found.failed3
    rw [if_pos (by simp [Found.VL])]

/-- **C95 fails.** With more components and phases a solution with a further liquid replaces that with three phases whatever its fractions
and Gibbs energy. -/
theorem C95_loop_fails : ∃ f : Found, ∃ s, f.three = some s ∧ Good s ∧ ∃ r, f.result = some r ∧ energy s < energy r ∧ ∃ q ∈ r, q.1 < 0 := by
  refine ⟨⟨4, 3, 4, [(1, -1)], some [(1 / 2, -2), (1 / 2, -1)], none, [], false, some [(1 / 2, -2), (1 / 4, -2), (1 / 4, -2)], .caught,
    [some [(1, -1), (1 / 2, -1), (-1, -1), (1 / 2, -1)]]⟩, [(1 / 2, -2), (1 / 4, -2), (1 / 4, -2)], rfl, ?_,
    [(1, -1), (1 / 2, -1), (-1, -1), (1 / 2, -1)], ?_, ?_, (-1, -1), by simp, by norm_num⟩
  · intro q hq
    simp only [List.mem_cons, List.not_mem_nil, or_false] at hq
    rcases hq with e | e | e <;> rw [e] <;> norm_num
  · have hg : Good [((1 : ℝ) / 2, (-2 : ℝ)), (1 / 4, -2), (1 / 4, -2)] := by
      intro q hq
      simp only [List.mem_cons, List.not_mem_nil, or_false] at hq
      rcases hq with e | e | e <;> rw [e] <;> norm_num
    unfold Found.result
    rw [if_neg (by simp [Found.VL, Found.LL]), if_neg (by simp [Found.VL, Found.LL]), if_neg (by norm_num), if_neg (by simp)]
    dsimp only
    rw [if_neg (by norm_num), if_neg (by
      rintro (h | h)
      · exact h hg
      · norm_num [Found.best, bestOf, Found.start, energy] at h), if_neg (by norm_num)]
    simp [moreLoop]
  · norm_num [energy]

/-- **C95.** The loop over further liquids gives the solution with three phases or one of those found for further liquids. -/
theorem C95_loop (maxPhases maxLiquids : ℕ) (xs : List (Option Sln)) (k : ℕ) (s : Sln) :
    moreLoop maxPhases maxLiquids xs k s = s ∨ some (moreLoop maxPhases maxLiquids xs k s) ∈ xs := by
  induction xs generalizing k s with
  | nil => left; rfl
  | cons x xs ih =>
    unfold moreLoop
    by_cases hc : s.length < maxPhases ∧ k < maxLiquids
    · rw [if_pos hc]
      cases x with
      | none =>
        dsimp only
        rcases ih (k + 1) s with h | h
        · left; exact h
        · right; exact List.mem_cons_of_mem _ h
      | some s' =>
        dsimp only
        by_cases hl : maxPhases = s'.length
        · rw [if_pos hl]; right; simp
        · rw [if_neg hl]
          rcases ih (k + 1) s' with h | h
          · right; rw [h]; simp
          · right; exact List.mem_cons_of_mem _ h
    · rw [if_neg hc]; left; rfl

example : moreLoop 4 3 [some [(1, 0), (0, 0), (0, 0), (0, 0)]] 2 [(1, 0), (0, 0), (0, 0)] = [(1, 0), (0, 0), (0, 0), (0, 0)] := by
  simp [moreLoop]

/-! ### Starting from another result (`flash_TPV_hot`, 281-303) -/

/-- A hot start with more than two phases returns what substitution gives. -/
def hotMany (s : Sln) : Option Sln := some s

/-- **C95 fails.** Starting from a result with three phases a negative fraction is returned; starting from two phases it leads to one
phase. -/
theorem C95_hot_fails : ∃ s : Sln, (s.map Prod.fst).sum = 1 ∧ ¬ Good s ∧ hotMany s = some s := by
  refine ⟨[(-1 / 2, 0), (1, 0), (1 / 2, 0)], by norm_num, fun h => ?_, rfl⟩
  have := (h (-1 / 2, 0) (by simp)).1
  norm_num at this

end Verif.MultiPhase
