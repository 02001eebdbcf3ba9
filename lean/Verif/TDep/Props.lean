import Verif.TDep.Model
import Mathlib.Tactic.Linarith
import Mathlib.Tactic.NormNum

/-!
# C10 (the call memo is unobservable) and C11 (the decision table)
-/

namespace Verif.TDep

variable {M E K D : Type} [DecidableEq M] [DecidableEq E]

/-! ## Helper lemmas -/

/-- The method as a function of temperature, with no memo involved. -/
def pureFun (p : Params E K D) (md : Meth D) : ℚ → Option ℚ :=
  match md.src with
  | .fn f => f
  | .table d => p.build d

/-- Consistency of the two inner memo tables with the configuration. -/
structure Memo (p : Params E K D) (s : Obj M E K D) : Prop where
  interps : ∀ m g, s.interps m = some g →
    ∃ md d, s.cfg.meths m = some md ∧ md.src = .table d ∧ g = p.build d
  coeffs : ∀ e m low k, s.coeffs e m low = some k → ∃ md lo hi, s.cfg.meths m = some md ∧
    md.lims = some (lo, hi) ∧ p.fit e (pureFun p md) lo hi low = some k

theorem methFun_eq {p : Params E K D} {s : Obj M E K D} (h : Memo p s) {m : M} {md : Meth D}
    (hm : s.cfg.meths m = some md) : methFun p s m md = pureFun p md := by
  unfold methFun pureFun
  cases hs : md.src with
  | fn f => rfl
  | table d =>
    cases hi : s.interps m with
    | none => rfl
    | some g =>
      obtain ⟨md', d', h1, h2, h3⟩ := h.interps m g hi
      rw [hm] at h1
      cases h1
      rw [hs] at h2
      cases h2
      exact h3

theorem touch_cfg (p : Params E K D) (s : Obj M E K D) (m : M) (md : Meth D) :
    (touch p s m md).cfg = s.cfg ∧ (touch p s m md).cache = s.cache ∧
      (touch p s m md).coeffs = s.coeffs := by
  unfold touch
  cases md.src with
  | fn f => exact ⟨rfl, rfl, rfl⟩
  | table d => cases s.interps m <;> exact ⟨rfl, rfl, rfl⟩

theorem touch_memo {p : Params E K D} {s : Obj M E K D} (h : Memo p s) {m : M} {md : Meth D}
    (hm : s.cfg.meths m = some md) : Memo p (touch p s m md) := by
  obtain ⟨hc, _, hk⟩ := touch_cfg p s m md
  constructor
  · intro m' g hg
    rw [hc]
    unfold touch at hg
    cases hs : md.src with
    | fn f => rw [hs] at hg; exact h.interps m' g hg
    | table d =>
      rw [hs] at hg
      cases hi : s.interps m with
      | some g' => rw [hi] at hg; exact h.interps m' g hg
      | none =>
        rw [hi] at hg
        by_cases hmm : m' = m
        · subst hmm
          simp only [Function.update_self, Option.some.injEq] at hg
          exact ⟨md, d, hm, hs, hg.symm⟩
        · simp only [Function.update_of_ne hmm] at hg
          exact h.interps m' g hg
  · rw [hc, hk]; exact h.coeffs

/-- What `extrapolate` computes without memos. -/
def pureExtrapolate (p : Params E K D) (ext : E × E) (md : Meth D) (T : ℚ) : Option ℚ :=
  match md.lims with
  | none => none
  | some (lo, hi) => match side T lo hi with
    | none => none
    | some low =>
      (p.fit (if low then ext.1 else ext.2) (pureFun p md) lo hi low).bind fun k =>
        (p.form (if low then ext.1 else ext.2) k (pureFun p md) (if low then lo else hi) T).map
          (clamp p.emin p.emax)

theorem extrapolate_spec {p : Params E K D} {s : Obj M E K D} (h : Memo p s) {m : M} {md : Meth D}
    (hm : s.cfg.meths m = some md) (ext : E × E) (T : ℚ) :
    (extrapolate p s ext m md T).1 = pureExtrapolate p ext md T ∧
    (extrapolate p s ext m md T).2.cfg = s.cfg ∧ (extrapolate p s ext m md T).2.cache = s.cache ∧
    Memo p (extrapolate p s ext m md T).2 := by
  unfold extrapolate pureExtrapolate
  cases hl : md.lims with
  | none => exact ⟨rfl, rfl, rfl, h⟩
  | some lh =>
    obtain ⟨lo, hi⟩ := lh
    dsimp only
    cases hsd : side T lo hi with
    | none => exact ⟨rfl, rfl, rfl, h⟩
    | some low =>
      dsimp only
      have hf := methFun_eq h hm
      generalize he : (if low = true then ext.1 else ext.2) = e
      cases hk : s.coeffs e m low with
      | some k =>
        dsimp only
        obtain ⟨md', lo', hi', h1, h2, h3⟩ := h.coeffs e m low k hk
        rw [hm] at h1; cases h1
        rw [hl] at h2; cases h2
        refine ⟨?_, ?_, ?_, ?_⟩
        · rw [h3, hf]; rfl
        · split
          · exact (touch_cfg p s m md).1
          · rfl
        · split
          · exact (touch_cfg p s m md).2.1
          · rfl
        · split
          · exact touch_memo h hm
          · exact h
      | none =>
        dsimp only
        rw [hf]
        cases hfit : p.fit e (pureFun p md) lo hi low with
        | none => exact ⟨rfl, (touch_cfg p s m md).1, (touch_cfg p s m md).2.1, touch_memo h hm⟩
        | some k =>
          refine ⟨rfl, (touch_cfg p s m md).1, (touch_cfg p s m md).2.1, ?_⟩
          have ht := touch_memo h hm
          constructor
          · exact ht.interps
          · intro e' m' low' k' hk'
            dsimp only at hk' ⊢
            by_cases h1 : e' = e
            · subst h1
              rw [Function.update_self] at hk'
              by_cases h2 : m' = m
              · subst h2
                rw [Function.update_self] at hk'
                by_cases h3 : low' = low
                · subst h3
                  rw [Function.update_self] at hk'
                  cases hk'
                  exact ⟨md, lo, hi, by rw [(touch_cfg p s m' md).1]; exact hm, hl, hfit⟩
                · rw [Function.update_of_ne h3] at hk'
                  exact ht.coeffs _ _ _ _ hk'
              · rw [Function.update_of_ne h2] at hk'
                exact ht.coeffs _ _ _ _ hk'
            · rw [Function.update_of_ne h1] at hk'
              exact ht.coeffs _ _ _ _ hk'

/-- What `T_dependent_property` computes without memos. -/
def pureEval (p : Params E K D) (c : Config M E D) (T : ℚ) : Res :=
  match c.method with
  | none => giveUp p
  | some m => match c.meths m with
    | none => giveUp p
    | some md =>
      if inRange md T then
        match pureFun p md T with
        | none => giveUp p
        | some v => if plausible p v then .val v else giveUp p
      else match c.ext with
        | none => giveUp p
        | some ext => match pureExtrapolate p ext md T with
          | some v => .val v
          | none => giveUp p

theorem evaluate_spec {p : Params E K D} {s : Obj M E K D} (h : Memo p s) (T : ℚ) :
    (evaluate p s T).1 = pureEval p s.cfg T ∧ (evaluate p s T).2.cfg = s.cfg ∧
    (evaluate p s T).2.cache = s.cache ∧ Memo p (evaluate p s T).2 := by
  unfold evaluate pureEval
  cases hm : s.cfg.method with
  | none => exact ⟨rfl, rfl, rfl, h⟩
  | some m =>
    dsimp only
    cases hmd : s.cfg.meths m with
    | none => exact ⟨rfl, rfl, rfl, h⟩
    | some md =>
      dsimp only
      by_cases hr : inRange md T = true
      · rw [if_pos hr, if_pos hr, methFun_eq h hmd]
        have ht := touch_cfg p s m md
        have hM := touch_memo h hmd
        cases pureFun p md T with
        | none => exact ⟨rfl, ht.1, ht.2.1, hM⟩
        | some v =>
          dsimp only
          split <;> exact ⟨rfl, ht.1, ht.2.1, hM⟩
      · rw [if_neg hr, if_neg hr]
        cases hext : s.cfg.ext with
        | none => exact ⟨rfl, rfl, rfl, h⟩
        | some ext =>
          dsimp only
          obtain ⟨h1, h2, h3, h4⟩ := extrapolate_spec h hmd ext T
          rw [← h1]
          generalize extrapolate p s ext m md T = x at h1 h2 h3 h4
          obtain ⟨o, s'⟩ := x
          cases o <;> exact ⟨rfl, h2, h3, h4⟩

theorem memo_new (p : Params E K D) (c : Config M E D) : Memo p (new c : Obj M E K D) :=
  ⟨fun _ _ h => (by cases h), fun _ _ _ _ h => (by cases h)⟩

theorem call_of_cache_none {p : Params E K D} {s : Obj M E K D} (h : Memo p s) (hc : s.cache = none)
    (T : ℚ) : (call p s T).1 = pureEval p s.cfg T := by
  obtain ⟨h1, -, -, -⟩ := evaluate_spec h T
  unfold call
  rw [hc, ← h1]
  dsimp only
  generalize evaluate p s T = x
  obtain ⟨r, s'⟩ := x
  cases r <;> rfl

/-! ## C11 -/

/-- The temperature is inside the limits of the method; a method without limits answers for itself. -/
def Inside (md : Meth D) (T : ℚ) : Prop :=
  (∃ lo hi, md.lims = some (lo, hi) ∧ lo ≤ T ∧ T ≤ hi) ∨ (md.lims = none ∧ md.valid T = true)

theorem inRange_iff (md : Meth D) (T : ℚ) : inRange md T = true ↔ Inside md T := by
  unfold inRange Inside
  cases md.lims with
  | none => simp
  | some lh => obtain ⟨lo, hi⟩ := lh; simp

/-- The value of the method at `T` as the object sees it: the function itself, or the interpolation of
the series. -/
inductive Value (p : Params E K D) (md : Meth D) (T v : ℚ) : Prop
  | fn (f : ℚ → Option ℚ) (h : md.src = .fn f) (hv : f T = some v)
  | table (d : D) (h : md.src = .table d) (hv : p.build d T = some v)

theorem value_iff (p : Params E K D) (md : Meth D) (T v : ℚ) :
    pureFun p md T = some v ↔ Value p md T v := by
  unfold pureFun
  constructor
  · intro h
    cases hs : md.src with
    | fn f => rw [hs] at h; exact .fn f hs h
    | table d => rw [hs] at h; exact .table d hs h
  · rintro (⟨f, hs, hv⟩ | ⟨d, hs, hv⟩) <;> rw [hs] <;> exact hv

/-- `v` is `w` brought within optional bounds. -/
structure Clamped (lo hi : Option ℚ) (w v : ℚ) : Prop where
  below : ∀ a, lo = some a → w < a → v = a
  above : ∀ b, hi = some b → b < w → (∀ a, lo = some a → a ≤ w) → v = b
  within : (∀ a, lo = some a → a ≤ w) → (∀ b, hi = some b → w ≤ b) → v = w

theorem clamped_iff (lo hi : Option ℚ) (w v : ℚ) : v = clamp lo hi w ↔ Clamped lo hi w v := by
  have hc : Clamped lo hi w (clamp lo hi w) := by
    cases lo <;> cases hi <;> simp only [clamp]
    · exact ⟨by simp, by simp, by simp⟩
    · rename_i b
      refine ⟨by simp, fun b' h1 h2 _ => ?_, fun _ h2 => ?_⟩
      · cases h1; rw [if_pos h2]
      · rw [if_neg (not_lt.2 (h2 b rfl))]
    · rename_i a
      refine ⟨fun a' h1 h2 => ?_, by simp, fun h1 _ => ?_⟩
      · cases h1; rw [if_pos h2]
      · rw [if_neg (not_lt.2 (h1 a rfl))]
    · rename_i a b
      refine ⟨fun a' h1 h2 => ?_, fun b' h1 h2 h3 => ?_, fun h1 h2 => ?_⟩
      · cases h1; rw [if_pos h2]
      · cases h1; rw [if_neg (not_lt.2 (h3 a rfl)), if_pos h2]
      · rw [if_neg (not_lt.2 (h1 a rfl)), if_neg (not_lt.2 (h2 b rfl))]
  refine ⟨fun h => h ▸ hc, fun h => ?_⟩
  by_cases h1 : ∃ a, lo = some a ∧ w < a
  · obtain ⟨a, ha, hw⟩ := h1
    rw [h.below a ha hw, hc.below a ha hw]
  · have h1' : ∀ a, lo = some a → a ≤ w := fun a ha => not_lt.1 fun hw => h1 ⟨a, ha, hw⟩
    by_cases h2 : ∃ b, hi = some b ∧ b < w
    · obtain ⟨b, hb, hw⟩ := h2
      rw [h.above b hb hw h1', hc.above b hb hw h1']
    · have h2' : ∀ b, hi = some b → w ≤ b := fun b hb => not_lt.1 fun hw => h2 ⟨b, hb, hw⟩
      rw [h.within h1' h2', hc.within h1' h2']

/-- `v` is the clamped value at `T` of the extrapolation form chosen for the side of the range on which
`T` lies, with coefficients fitted to the method at that limit. -/
def Extrapolated (p : Params E K D) (ext : E × E) (md : Meth D) (T v : ℚ) : Prop :=
  ∃ lo hi k w, md.lims = some (lo, hi) ∧ 0 ≤ T ∧ Clamped p.emin p.emax w v ∧
    ((T ≤ lo ∧ p.fit ext.1 (pureFun p md) lo hi true = some k ∧
        p.form ext.1 k (pureFun p md) lo T = some w) ∨
      (lo < T ∧ hi ≤ T ∧ p.fit ext.2 (pureFun p md) lo hi false = some k ∧
        p.form ext.2 k (pureFun p md) hi T = some w))

theorem extrapolated_iff (p : Params E K D) (ext : E × E) (md : Meth D) (T v : ℚ) :
    pureExtrapolate p ext md T = some v ↔ Extrapolated p ext md T v := by
  unfold pureExtrapolate Extrapolated
  simp only [← clamped_iff]
  cases hl : md.lims with
  | none => simp
  | some lh =>
    obtain ⟨lo, hi⟩ := lh
    dsimp only
    unfold side
    by_cases h0 : T < 0
    · rw [if_pos h0]
      simp only [reduceCtorEq, false_iff]
      rintro ⟨lo', hi', k, w, -, h, -⟩
      linarith
    · rw [if_neg h0]
      by_cases h1 : T ≤ lo
      · rw [if_pos h1]
        simp only [if_true, Option.bind_eq_some_iff, Option.map_eq_some_iff]
        constructor
        · rintro ⟨k, hk, w, hw, rfl⟩
          exact ⟨lo, hi, k, w, rfl, not_lt.1 h0, rfl, .inl ⟨h1, hk, hw⟩⟩
        · rintro ⟨lo', hi', k, w, hlh, -, rfl, h⟩
          cases hlh
          rcases h with ⟨-, hk, hw⟩ | ⟨h, -⟩
          · exact ⟨k, hk, w, hw, rfl⟩
          · exact absurd h (not_lt.2 h1)
      · rw [if_neg h1]
        by_cases h2 : hi ≤ T
        · rw [if_pos h2]
          simp only [Bool.false_eq_true, if_false, Option.bind_eq_some_iff, Option.map_eq_some_iff]
          constructor
          · rintro ⟨k, hk, w, hw, rfl⟩
            exact ⟨lo, hi, k, w, rfl, not_lt.1 h0, rfl, .inr ⟨not_le.1 h1, h2, hk, hw⟩⟩
          · rintro ⟨lo', hi', k, w, hlh, -, rfl, h⟩
            cases hlh
            rcases h with ⟨h, -⟩ | ⟨-, -, hk, hw⟩
            · exact absurd h h1
            · exact ⟨k, hk, w, hw, rfl⟩
        · rw [if_neg h2]
          simp only [reduceCtorEq, false_iff]
          rintro ⟨lo', hi', k, w, hlh, -, rfl, h⟩
          cases hlh
          rcases h with ⟨h, -⟩ | ⟨-, h, -⟩
          · exact h1 h
          · exact h2 h

theorem plausible_iff (p : Params E K D) (v : ℚ) : plausible p v = true ↔ p.pmin ≤ v ∧ v ≤ p.pmax := by
  unfold plausible
  by_cases h : v < p.pmin
  · rw [if_pos h]; simp only [Bool.false_eq_true, false_iff]; rintro ⟨h', -⟩; linarith
  · rw [if_neg h]
    by_cases h2 : v > p.pmax
    · rw [if_pos h2]; simp only [Bool.false_eq_true, false_iff]; rintro ⟨-, h'⟩; linarith
    · rw [if_neg h2]; simp [not_lt.1 h, not_lt.1 h2]

/-- The value the selected method should give at `T`: inside its limits its own value if that is
plausible, outside them the extrapolation if one is selected. -/
def Expected (p : Params E K D) (c : Config M E D) (T v : ℚ) : Prop :=
  ∃ m md, c.method = some m ∧ c.meths m = some md ∧
    ((Inside md T ∧ Value p md T v ∧ p.pmin ≤ v ∧ v ≤ p.pmax) ∨
      (¬ Inside md T ∧ ∃ ext, c.ext = some ext ∧ Extrapolated p ext md T v))

/-- **C11.** A new object evaluated at `T` returns `v` exactly when `v` is the expected value; when there
is no expected value the answer is `None`, or an exception if the object is strict. In particular a value
computed by the method itself is within the plausibility bounds. -/
theorem C11_decision (p : Params E K D) (c : Config M E D) (T : ℚ) :
    (∀ v, (call p (new c) T).1 = .val v ↔ Expected p c T v) ∧
    ((∀ v, ¬ Expected p c T v) →
      (call p (new c) T).1 = if p.strict then .raised else .none) := by
  have hcall : (call p (new c : Obj M E K D) T).1 = pureEval p c T :=
    call_of_cache_none (memo_new p c) rfl T
  have hg : ∀ v, giveUp p ≠ .val v := by
    intro v; unfold giveUp; split <;> simp
  have main : ∀ v, pureEval p c T = .val v ↔ Expected p c T v := by
    intro v
    unfold pureEval Expected
    cases hm : c.method with
    | none => simp [hg]
    | some m =>
      dsimp only
      cases hmd : c.meths m with
      | none =>
        simp only [hg, false_iff]
        rintro ⟨m', md, h1, h2, -⟩
        cases h1; rw [hmd] at h2; cases h2
      | some md =>
        dsimp only
        have red : (∃ m' md', some m = some m' ∧ c.meths m' = some md' ∧
            ((Inside md' T ∧ Value p md' T v ∧ p.pmin ≤ v ∧ v ≤ p.pmax) ∨
              (¬ Inside md' T ∧ ∃ ext, c.ext = some ext ∧ Extrapolated p ext md' T v))) ↔
            ((Inside md T ∧ Value p md T v ∧ p.pmin ≤ v ∧ v ≤ p.pmax) ∨
              (¬ Inside md T ∧ ∃ ext, c.ext = some ext ∧ Extrapolated p ext md T v)) := by
          constructor
          · rintro ⟨m', md', h1, h2, h⟩
            cases h1; rw [hmd] at h2; cases h2; exact h
          · intro h; exact ⟨m, md, rfl, hmd, h⟩
        rw [red]
        by_cases hr : inRange md T = true
        · rw [if_pos hr]
          have hin := (inRange_iff md T).1 hr
          simp only [hin, true_and, not_true, false_and, or_false]
          rw [← value_iff, ← plausible_iff p v]
          cases hv : pureFun p md T with
          | none => simp [hg]
          | some w =>
            dsimp only
            by_cases hw : plausible p w = true
            · rw [if_pos hw]
              simp only [Res.val.injEq, Option.some.injEq]
              constructor
              · rintro rfl; exact ⟨rfl, hw⟩
              · rintro ⟨rfl, -⟩; rfl
            · rw [if_neg hw]
              simp only [hg, Option.some.injEq, false_iff]
              rintro ⟨rfl, h⟩; exact hw h
        · rw [if_neg hr]
          have hin : ¬ Inside md T := fun h => hr ((inRange_iff md T).2 h)
          simp only [hin, false_and, not_false_eq_true, true_and, false_or]
          cases he : c.ext with
          | none => simp [hg]
          | some ext =>
            dsimp only
            simp only [Option.some.injEq, exists_eq_left']
            rw [← extrapolated_iff]
            cases pureExtrapolate p ext md T with
            | none => simp [hg]
            | some w => simp
  refine ⟨fun v => by rw [hcall]; exact main v, fun h => ?_⟩
  rw [hcall]
  have : ∀ r, pureEval p c T = r → (∃ v, r = .val v) ∨ r = giveUp p := by
    rintro r rfl
    unfold pureEval
    repeat' split
    all_goals first
      | exact .inr rfl
      | exact .inl ⟨_, rfl⟩
  rcases this _ rfl with ⟨v, hv⟩ | hv
  · exact absurd ((main v).1 hv) (h v)
  · rw [hv]; rfl

/-! ## C10 -/

/-- The histories for which the memos stay right: the extrapolation is changed only when nothing is
memoised or when the last call was inside the limits of the selected method, and a name in use is not
given to a new method. -/
def Safe (s : Obj M E K D) : Op M E D → Prop
  | .call _ => True
  | .setMethod _ => True
  | .setExtrapolation e => ∀ T r, s.cache = some (T, r) → e = s.cfg.ext ∨
      ∃ m md, s.cfg.method = some m ∧ s.cfg.meths m = some md ∧ Inside md T
  | .addMethod n _ => s.cfg.meths n = none
  | .addData fr n _ _ => fr = true ∨ s.cfg.meths n = none

/-- All operations of a history are safe when they are made. -/
def SafeRun (p : Params E K D) (s : Obj M E K D) : List (Op M E D) → Prop
  | [] => True
  | o :: os => Safe s o ∧ SafeRun p (step p s o) os

structure Inv (p : Params E K D) (s : Obj M E K D) : Prop where
  memo : Memo p s
  cache : ∀ T r, s.cache = some (T, r) → r = pureEval p s.cfg T
  sel : ∀ m, s.cfg.method = some m → ∃ md, s.cfg.meths m = some md

theorem call_inv {p : Params E K D} {s : Obj M E K D} (h : Inv p s) (T : ℚ) :
    (call p s T).1 = pureEval p s.cfg T ∧ (call p s T).2.cfg = s.cfg ∧ Inv p (call p s T).2 := by
  obtain ⟨h1, h2, h3, h4⟩ := evaluate_spec h.memo T
  have key : ∀ x : Res × Obj M E K D, x.1 = pureEval p s.cfg T → x.2.cfg = s.cfg →
      x.2.cache = s.cache → Memo p x.2 →
      (match x with
        | (.raised, s') => ((.raised : Res), s')
        | (r, s') => (r, { s' with cache := some (T, r) })).1 = pureEval p s.cfg T ∧
      (match x with
        | (.raised, s') => ((.raised : Res), s')
        | (r, s') => (r, { s' with cache := some (T, r) })).2.cfg = s.cfg ∧
      Inv p (match x with
        | (.raised, s') => ((.raised : Res), s')
        | (r, s') => (r, { s' with cache := some (T, r) })).2 := by
    rintro ⟨r, s'⟩ e1 e2 e3 e4
    cases r with
    | raised =>
      refine ⟨e1, e2, ⟨e4, ?_, ?_⟩⟩
      · intro T' r' hc
        dsimp only at e2 e3 hc ⊢
        rw [e3] at hc; rw [e2]
        exact h.cache T' r' hc
      · dsimp only at e2 ⊢; rw [e2]; exact h.sel
    | none =>
      refine ⟨e1, e2, ⟨⟨e4.interps, e4.coeffs⟩, ?_, ?_⟩⟩
      · intro T' r' hc
        dsimp only at e1 e2 hc ⊢
        cases hc
        rw [e2]; exact e1
      · dsimp only at e2 ⊢; rw [e2]; exact h.sel
    | val v =>
      refine ⟨e1, e2, ⟨⟨e4.interps, e4.coeffs⟩, ?_, ?_⟩⟩
      · intro T' r' hc
        dsimp only at e1 e2 hc ⊢
        cases hc
        rw [e2]; exact e1
      · dsimp only at e2 ⊢; rw [e2]; exact h.sel
  unfold call
  cases hc : s.cache with
  | none => exact key _ h1 h2 h3 h4
  | some c =>
    obtain ⟨T', v⟩ := c
    dsimp only
    by_cases hT : T = T'
    · rw [if_pos hT]
      subst hT
      exact ⟨h.cache _ _ hc, rfl, h⟩
    · rw [if_neg hT]
      exact key _ h1 h2 h3 h4

theorem store_memo {p : Params E K D} {s : Obj M E K D} (h : Memo p s) {n : M} (md : Meth D)
    (hn : s.cfg.meths n = none) : Memo p (store s n md) := by
  have up : ∀ m md', s.cfg.meths m = some md' → (store s n md).cfg.meths m = some md' := by
    intro m md' hm
    have : m ≠ n := by rintro rfl; rw [hn] at hm; cases hm
    unfold store; dsimp only; rw [Function.update_of_ne this]; exact hm
  constructor
  · intro m g hg
    obtain ⟨md', d, h1, h2, h3⟩ := h.interps m g hg
    exact ⟨md', d, up m md' h1, h2, h3⟩
  · intro e m low k hk
    obtain ⟨md', lo, hi, h1, h2, h3⟩ := h.coeffs e m low k hk
    exact ⟨md', lo, hi, up m md' h1, h2, h3⟩

theorem step_inv {p : Params E K D} {s : Obj M E K D} (h : Inv p s) (o : Op M E D) (ho : Safe s o) :
    Inv p (step p s o) := by
  cases o with
  | call T => exact (call_inv h T).2.2
  | setMethod m =>
    cases m with
    | none => exact ⟨⟨h.memo.interps, h.memo.coeffs⟩, fun _ _ hc => (by cases hc), fun _ hm => (by cases hm)⟩
    | some m =>
      unfold step setMethod
      dsimp only
      cases hmd : s.cfg.meths m with
      | none => exact h
      | some md =>
        refine ⟨⟨h.memo.interps, h.memo.coeffs⟩, fun _ _ hc => (by cases hc), fun m' hm => ?_⟩
        cases hm
        exact ⟨md, hmd⟩
  | setExtrapolation e =>
    refine ⟨⟨h.memo.interps, h.memo.coeffs⟩, fun T r hc => ?_, h.sel⟩
    have hr := h.cache T r hc
    rcases ho T r hc with he | ⟨m, md, h1, h2, h3⟩
    · show r = pureEval p { s.cfg with ext := e } T
      rw [he]; exact hr
    · rw [hr]
      unfold pureEval
      show _ = _
      simp only [step, setExtrapolation, h1, h2, (inRange_iff md T).2 h3, if_true]
  | addMethod n md =>
    have hn : s.cfg.meths n = none := ho
    have hM := store_memo h.memo md hn
    refine ⟨⟨hM.interps, hM.coeffs⟩, fun _ _ hc => (by cases hc), fun m hm => ?_⟩
    cases hm
    exact ⟨md, by simp [step, addMethod, store]⟩
  | addData fr n md sel =>
    unfold step addData
    dsimp only
    by_cases hg : (fr && (s.cfg.meths n).isSome) = true
    · rw [if_pos hg]; exact h
    · rw [if_neg hg]
      have hn : s.cfg.meths n = none := by
        rcases ho with hf | hn
        · subst hf
          simpa using hg
        · exact hn
      have hM := store_memo h.memo md hn
      cases sel with
      | true =>
        have : (store s n md).cfg.meths n = some md := by simp [store]
        simp only [if_true, setMethod, this]
        refine ⟨⟨hM.interps, hM.coeffs⟩, fun _ _ hc => (by cases hc), fun m hm => ?_⟩
        cases hm
        exact ⟨md, this⟩
      | false =>
        have up : ∀ m, s.cfg.method = some m → (store s n md).cfg.meths m = s.cfg.meths m := by
          intro m hm
          obtain ⟨md', hmd'⟩ := h.sel m hm
          have : m ≠ n := by rintro rfl; rw [hn] at hmd'; cases hmd'
          unfold store; dsimp only; rw [Function.update_of_ne this]
        simp only [Bool.false_eq_true, if_false, Option.getD_some]
        refine ⟨hM, fun T r hc => ?_, fun m hm => ?_⟩
        · rw [h.cache T r hc]
          unfold pureEval
          show _ = match s.cfg.method with
            | none => _
            | some m => _
          cases hm : s.cfg.method with
          | none => rfl
          | some m => dsimp only; rw [up m hm]; rfl
        · rw [up m hm]; exact h.sel m hm

theorem run_inv {p : Params E K D} (ops : List (Op M E D)) : ∀ {s : Obj M E K D}, Inv p s →
    SafeRun p s ops → Inv p (run p s ops) := by
  induction ops with
  | nil => intro s h _; exact h
  | cons o os ih => intro s h hs; exact ih (step_inv h o hs.1) hs.2

/-- **C10 (partial).** After any history of calls, method selections, additions of methods and data and
changes of extrapolation in which no name is re-used and the extrapolation is not changed while a value
outside the limits is memoised, a call answers what a new object with the current configuration answers.
Missing: the excluded histories, for which the claim is false (`C10_extrapolation_change_stale`,
`C10_readded_method_stale`, `C10_readded_table_stale`). -/
theorem C10_cache_unobservable_partial (p : Params E K D) (c : Config M E D)
    (hc : ∀ m, c.method = some m → ∃ md, c.meths m = some md) (ops : List (Op M E D))
    (hs : SafeRun p (new c) ops) (T : ℚ) :
    (call p (run p (new c) ops) T).1 = (call p (new (run p (new c) ops).cfg) T).1 := by
  have h0 : Inv p (new c : Obj M E K D) := ⟨memo_new p c, fun _ _ h => (by cases h), hc⟩
  have h := run_inv ops h0 hs
  rw [(call_inv h T).1]
  exact (call_of_cache_none (memo_new p _) rfl T).symm

/-- **C10.** A call changes no configuration, whatever the memos hold; so evaluating a property cannot
change which method or extrapolation is used later. -/
theorem C10_call_keeps_config (p : Params E K D) (s : Obj M E K D) (T : ℚ) :
    (call p s T).2.cfg = s.cfg := by
  have ht : ∀ m md, (touch p s m md).cfg = s.cfg := fun m md => (touch_cfg p s m md).1
  have he : ∀ ext m md, (extrapolate p s ext m md T).2.cfg = s.cfg := by
    intro ext m md
    have hu : ∀ b : Bool, (if b then touch p s m md else s).cfg = s.cfg := by
      intro b; cases b
      · rfl
      · exact ht m md
    unfold extrapolate
    cases md.lims with
    | none => rfl
    | some lh =>
      obtain ⟨lo, hi⟩ := lh
      dsimp only
      cases side T lo hi with
      | none => rfl
      | some low =>
        dsimp only
        generalize (if low = true then ext.1 else ext.2) = e
        cases s.coeffs e m low with
        | some k => exact hu _
        | none =>
          dsimp only
          cases p.fit e (methFun p s m md) lo hi low with
          | none => exact ht m md
          | some k => exact ht m md
  have hv : (evaluate p s T).2.cfg = s.cfg := by
    unfold evaluate
    cases s.cfg.method with
    | none => rfl
    | some m =>
      dsimp only
      cases s.cfg.meths m with
      | none => rfl
      | some md =>
        dsimp only
        by_cases hr : inRange md T = true
        · rw [if_pos hr]
          cases methFun p s m md T with
          | none => exact ht _ _
          | some v => dsimp only; split <;> exact ht _ _
        · rw [if_neg hr]
          cases s.cfg.ext with
          | none => rfl
          | some ext =>
            dsimp only
            have := he ext m md
            generalize extrapolate p s ext m md T = x at this
            obtain ⟨o, s'⟩ := x
            cases o <;> exact this
  unfold call
  split
  · split
    · rfl
    · split
      · rename_i heq; rw [heq] at hv; exact hv
      · rename_i heq; rw [heq] at hv; exact hv
  · split
    · rename_i heq; rw [heq] at hv; exact hv
    · rename_i heq; rw [heq] at hv; exact hv

/-! ### Concrete objects -/

/-- Forms named by a Boolean: `true` is the constant extrapolation, `false` the linear one (as if the
slope were fitted as `1`). -/
def demo : Params Bool ℚ ℚ where
  pmin := 0
  pmax := 1000
  strict := false
  fit := fun _ f lo hi low => f (if low then lo else hi)
  form := fun e k _ lim T => some (if e then k else k + (T - lim))
  usesFn := fun _ => false
  emin := none
  emax := none
  build := fun d _ => some d

/-- One method `0`, the identity on `[10, 20]`, constant extrapolation. -/
def demoCfg : Config ℕ Bool ℚ where
  method := some 0
  meths := fun n => if n = 0 then some ⟨.fn some, some (10, 20), fun _ => true⟩ else none
  ext := some (true, true)

/-- Non-trivial history meeting the hypotheses of `C10_cache_unobservable_partial`. -/
example : SafeRun (K := ℚ) demo (new demoCfg)
    [.call 15, .setExtrapolation (some (false, true)), .call 25,
      .addMethod 1 ⟨.fn some, some (0, 1), fun _ => true⟩, .call 2] := by
  refine ⟨trivial, ?_, trivial, ?_, trivial, trivial⟩
  · intro T r h
    right
    refine ⟨0, ⟨.fn some, some (10, 20), fun _ => true⟩, rfl, rfl, .inl ⟨10, 20, rfl, ?_⟩⟩
    have : T = 15 := by
      have h' : (some ((15 : ℚ), Res.val 15)) = some (T, r) := h
      cases h'; rfl
    subst this
    norm_num
  · rfl

example : Expected demo demoCfg 25 20 := by
  refine ⟨0, ⟨.fn some, some (10, 20), fun _ => true⟩, rfl, rfl, .inr ⟨?_, (true, true), rfl, 10, 20, 20,
    20, rfl, by norm_num, (clamped_iff _ _ _ _).1 rfl, .inr ⟨by norm_num, by norm_num, rfl, rfl⟩⟩⟩
  rintro (⟨lo, hi, h, h1, h2⟩ | ⟨h, -⟩)
  · cases h; norm_num at h2
  · cases h

/-- **C10, the claim fails** when the extrapolation is changed between two calls at the same
temperature: the second call returns the value of the old extrapolation. -/
theorem C10_extrapolation_change_stale :
    ∃ (p : Params Bool ℚ ℚ) (c : Config ℕ Bool ℚ),
      let s := run p (new c) [.call 25, .setExtrapolation (some (false, false))]
      (call p s 25).1 = .val 20 ∧ (call p (new s.cfg) 25).1 = .val 25 :=
  ⟨demo, demoCfg, by decide +kernel, by decide +kernel⟩

/-- **C10, the claim fails** when a method is added again under its name: the call memo is cleared but
the extrapolation coefficients of the old method are kept. -/
theorem C10_readded_method_stale :
    ∃ (p : Params Bool ℚ ℚ) (c : Config ℕ Bool ℚ),
      let s := run p (new c) [.call 25,
        .addMethod 0 ⟨.fn fun T => some (2 * T), some (10, 20), fun _ => true⟩]
      (call p s 25).1 = .val 20 ∧ (call p (new s.cfg) 25).1 = .val 40 :=
  ⟨demo, demoCfg, by decide +kernel, by decide +kernel⟩

/-- **C10, the claim fails** when tabular data are added again under their name: the interpolator of the
old data is kept, even inside the limits. -/
theorem C10_readded_table_stale :
    ∃ (p : Params Bool ℚ ℚ) (c : Config ℕ Bool ℚ),
      let s := run p (new c) [.addData false 1 ⟨.table 5, some (10, 20), fun _ => true⟩ true, .call 15,
        .addData false 1 ⟨.table 7, some (10, 20), fun _ => true⟩ true]
      (call p s 15).1 = .val 5 ∧ (call p (new s.cfg) 15).1 = .val 7 :=
  ⟨demo, demoCfg, by decide +kernel, by decide +kernel⟩

end Verif.TDep
