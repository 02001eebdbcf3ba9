import Verif.TDep.Props

/-!
# Pressure-dependent property objects (`thermo/utils/tp_dependent_property.py`)

A `TPDependentProperty` adds to a temperature-dependent object a table of pressure-dependent methods, a
selected one (`method_P`), a memo of the last call (`TP_cached`, `prop_cached`) and interpolators of
pressure tables (`tabular_data_interpolators_P`).
-/

namespace Verif.TDep

/-- A pressure-dependent method (tp_dependent_property.py 384-417; t_dependent_property.py 3035-3041):
a table on a grid with its four bounds, `NEGLECT_P` (the temperature-dependent value), or a method of the
subclass with its temperature limits. -/
inductive PMeth (G : Type) where
  | table (g : G) (Tlo Thi Plo Phi : ℚ)
  | neglect
  | fn (f : ℚ → ℚ → Option ℚ) (Tmin Tmax : ℚ)

/-- Black boxes of the pressure part: `buildP` makes an interpolator from a grid (455-494);
`extrap` is `tabular_extrapolation_permitted` (124). -/
structure PParams (G : Type) where
  buildP : G → ℚ → ℚ → Option ℚ
  extrap : Bool

/-- Configuration of the pressure part: `_method_P` and `all_methods_P` with their data. -/
structure PConfig (M G : Type) where
  methodP : Option M
  methsP : M → Option (PMeth G)

/-- The object: the temperature part, the pressure configuration, the call memo and the interpolators
(92-107). The temperature part's own call memo is never used: `__call__` is overridden (184). -/
structure PObj (M E K D G : Type) where
  t : Obj M E K D
  pc : PConfig M G
  cacheP : Option ((ℚ × Option ℚ) × Res)
  interpsP : M → Option (ℚ → ℚ → Option ℚ)

variable {M E K D G : Type} [DecidableEq M] [DecidableEq E]

/-- `test_method_validity(T, self._method) if self._method else False` (411). -/
def tValid (c : Config M E D) (T : ℚ) : Bool :=
  match c.method with
  | none => false
  | some m => match c.meths m with
    | none => false
    | some md => inRange md T

/-- `test_method_validity_P` (384-417): strict comparisons, unlike the temperature-only test. -/
def validP (q : PParams G) (c : Config M E D) (pm : PMeth G) (T P : ℚ) : Bool :=
  match pm with
  | .table _ Tlo Thi Plo Phi =>
    q.extrap || (decide (Tlo < T) && decide (T < Thi) && decide (Plo < P) && decide (P < Phi))
  | .neglect => tValid c T
  | .fn _ Tmin Tmax => decide (Tmin < T) && decide (T < Tmax)

/-- `interpolate_P`'s interpolator for a grid stored under a name (448-494): the memoised one if any. -/
def gridFun (q : PParams G) (s : PObj M E K D G) (m : M) (g : G) : ℚ → ℚ → Option ℚ :=
  match s.interpsP m with
  | some h => h
  | none => q.buildP g

/-- Its side effect (494). -/
def touchP (q : PParams G) (s : PObj M E K D G) (m : M) (g : G) : PObj M E K D G :=
  match s.interpsP m with
  | some _ => s
  | none => { s with interpsP := Function.update s.interpsP m (some (q.buildP g)) }

/-- `calculate_P` for the methods of the base class (t_dependent_property.py 3035-3041) and subclass
methods. The result `none` is `None` or an exception; the exception of a strict object under `NEGLECT_P`
is caught by the caller (tp 279), which then raises itself. -/
def calcP (p : Params E K D) (q : PParams G) (s : PObj M E K D G) (m : M) (pm : PMeth G) (T P : ℚ) :
    Option ℚ × PObj M E K D G :=
  match pm with
  | .table g Tlo Thi Plo Phi =>
    if !q.extrap && (decide (T < Tlo) || decide (Thi < T) || decide (P < Plo) || decide (Phi < P)) then
      (none, s)
    else (gridFun q s m g T P, touchP q s m g)
  | .neglect =>
    let (r, t') := evaluate p s.t T
    (match r with | .val v => some v | _ => none, { s with t := t' })
  | .fn f _ _ => (f T P, s)

/-- `TP_dependent_property(T, P)` (250-288). -/
def evaluateP (p : Params E K D) (q : PParams G) (s : PObj M E K D G) (T P : ℚ) :
    Res × PObj M E K D G :=
  match s.pc.methodP with
  | none => (giveUp p, s)
  | some m => match s.pc.methsP m with
    | none => (giveUp p, s)
    | some pm =>
      if validP q s.t.cfg pm T P then
        match calcP p q s m pm T P with
        | (none, s') => (giveUp p, s')
        | (some v, s') => if plausible p v then (.val v, s') else (giveUp p, s')
      else (giveUp p, s)

/-- The evaluation a call makes: `TP_dependent_property(T, P)`, or `T_dependent_property(T)` when `P` is
`None` (206-209). -/
def evaluateTP (p : Params E K D) (q : PParams G) (s : PObj M E K D G) (T : ℚ) :
    Option ℚ → Res × PObj M E K D G
  | some P => evaluateP p q s T P
  | none => let (r, t') := evaluate p s.t T; (r, { s with t := t' })

/-- Remember the result of a call unless it raised (206-211). -/
def remember (k : ℚ × Option ℚ) (x : Res × PObj M E K D G) : Res × PObj M E K D G :=
  match x with
  | (.raised, s') => (.raised, s')
  | (r, s') => (r, { s' with cacheP := some (k, r) })

/-- `__call__(T, P)` (184-211). -/
def callP (p : Params E K D) (q : PParams G) (s : PObj M E K D G) (T : ℚ) (P : Option ℚ) :
    Res × PObj M E K D G :=
  match s.cacheP with
  | some (k, v) => if (T, P) = k then (v, s) else remember (T, P) (evaluateTP p q s T P)
  | none => remember (T, P) (evaluateTP p q s T P)

/-- `prop.method_P = m` (177-182). -/
def setMethodP (s : PObj M E K D G) (m : Option M) : Option (PObj M E K D G) :=
  match m with
  | none => some { s with pc := { s.pc with methodP := none }, cacheP := none }
  | some m => match s.pc.methsP m with
    | none => none
    | some _ => some { s with pc := { s.pc with methodP := some m }, cacheP := none }

/-- `add_tabular_data_P` (342-382): stored and selected; the interpolator of an earlier table of the same
name is kept. Argument checks are omitted. -/
def addTableP (s : PObj M E K D G) (name : M) (pm : PMeth G) : PObj M E K D G :=
  { s with pc := ⟨some name, Function.update s.pc.methsP name (some pm)⟩, cacheP := none }

/-- Public operations; `tOp` are those inherited from the temperature-dependent class: they do not touch
`TP_cached`. -/
inductive POp (M E D G : Type) where
  | call (T : ℚ) (P : Option ℚ)
  | setMethodP (m : Option M)
  | addTableP (name : M) (g : G) (Tlo Thi Plo Phi : ℚ)
  | tOp (o : Op M E D)

/-- One operation. -/
def stepP (p : Params E K D) (q : PParams G) (s : PObj M E K D G) : POp M E D G → PObj M E K D G
  | .call T P => (callP p q s T P).2
  | .setMethodP m => (setMethodP s m).getD s
  | .addTableP n g a b c d => addTableP s n (.table g a b c d)
  | .tOp o => { s with t := step p s.t o }

/-- A new object. -/
def newP (c : Config M E D) (pc : PConfig M G) : PObj M E K D G :=
  ⟨new c, pc, none, fun _ => none⟩

/-- A history. -/
def runP (p : Params E K D) (q : PParams G) (s : PObj M E K D G) (ops : List (POp M E D G)) :
    PObj M E K D G := ops.foldl (stepP p q) s

/-! ## Helper lemmas -/

/-- Value of a pressure-dependent evaluation without memos. -/
def pureP (p : Params E K D) (q : PParams G) (c : Config M E D) (pc : PConfig M G) (T : ℚ) :
    Option ℚ → Res
  | none => pureEval p c T
  | some P => match pc.methodP with
    | none => giveUp p
    | some m => match pc.methsP m with
      | none => giveUp p
      | some pm =>
        if validP q c pm T P then
          match (match pm with
            | .table g Tlo Thi Plo Phi =>
              if !q.extrap && (decide (T < Tlo) || decide (Thi < T) || decide (P < Plo)
                || decide (Phi < P)) then none else q.buildP g T P
            | .neglect => (match pureEval p c T with | .val v => some v | _ => none)
            | .fn f _ _ => f T P) with
          | none => giveUp p
          | some v => if plausible p v then .val v else giveUp p
        else giveUp p

structure MemoP (p : Params E K D) (q : PParams G) (s : PObj M E K D G) : Prop where
  t : Memo p s.t
  grids : ∀ m h, s.interpsP m = some h → ∃ g a b c d, s.pc.methsP m = some (.table g a b c d) ∧
    h = q.buildP g

theorem evaluateTP_spec {p : Params E K D} {q : PParams G} {s : PObj M E K D G} (h : MemoP p q s)
    (T : ℚ) (P : Option ℚ) :
    (evaluateTP p q s T P).1 = pureP p q s.t.cfg s.pc T P ∧
    (evaluateTP p q s T P).2.t.cfg = s.t.cfg ∧ (evaluateTP p q s T P).2.pc = s.pc ∧
    (evaluateTP p q s T P).2.cacheP = s.cacheP ∧ MemoP p q (evaluateTP p q s T P).2 := by
  obtain ⟨e1, e2, -, e4⟩ := evaluate_spec h.t T
  cases P with
  | none => exact ⟨e1, e2, rfl, rfl, ⟨e4, h.grids⟩⟩
  | some P =>
    unfold evaluateTP evaluateP pureP
    dsimp only
    cases hm : s.pc.methodP with
    | none => exact ⟨rfl, rfl, rfl, rfl, h⟩
    | some m =>
      dsimp only
      cases hpm : s.pc.methsP m with
      | none => exact ⟨rfl, rfl, rfl, rfl, h⟩
      | some pm =>
        dsimp only
        by_cases hv : validP q s.t.cfg pm T P = true
        · rw [if_pos hv, if_pos hv]
          unfold calcP
          cases pm with
          | fn f a b =>
            dsimp only
            cases f T P with
            | none => exact ⟨rfl, rfl, rfl, rfl, h⟩
            | some v => dsimp only; split <;> exact ⟨rfl, rfl, rfl, rfl, h⟩
          | neglect =>
            dsimp only
            rw [← e1]
            generalize evaluate p s.t T = x at e1 e2 e4
            obtain ⟨r, t'⟩ := x
            have hM : MemoP p q { s with t := t' } := ⟨e4, h.grids⟩
            cases r with
            | val v => dsimp only; split <;> exact ⟨rfl, e2, rfl, rfl, hM⟩
            | none => exact ⟨rfl, e2, rfl, rfl, hM⟩
            | raised => exact ⟨rfl, e2, rfl, rfl, hM⟩
          | table g a b c d =>
            dsimp only
            by_cases hb : (!q.extrap && (decide (T < a) || decide (b < T) || decide (P < c)
                || decide (d < P))) = true
            · rw [if_pos hb, if_pos hb]
              exact ⟨rfl, rfl, rfl, rfl, h⟩
            · rw [if_neg hb, if_neg hb]
              have hgf : gridFun q s m g = q.buildP g := by
                unfold gridFun
                cases hi : s.interpsP m with
                | none => rfl
                | some f =>
                  obtain ⟨g', a', b', c', d', h1, h2⟩ := h.grids m f hi
                  rw [hpm] at h1
                  cases h1
                  exact h2
              rw [hgf]
              have ht : (touchP q s m g).t = s.t ∧ (touchP q s m g).pc = s.pc ∧
                  (touchP q s m g).cacheP = s.cacheP ∧ MemoP p q (touchP q s m g) := by
                unfold touchP
                cases hi : s.interpsP m with
                | some f => exact ⟨rfl, rfl, rfl, h⟩
                | none =>
                  refine ⟨rfl, rfl, rfl, ⟨h.t, fun m' f hf => ?_⟩⟩
                  dsimp only at hf ⊢
                  by_cases hmm : m' = m
                  · subst hmm
                    rw [Function.update_self] at hf
                    cases hf
                    exact ⟨g, a, b, c, d, hpm, rfl⟩
                  · rw [Function.update_of_ne hmm] at hf
                    exact h.grids m' f hf
              obtain ⟨t1, t2, t3, t4⟩ := ht
              cases q.buildP g T P with
              | none => exact ⟨rfl, by rw [t1], t2, t3, t4⟩
              | some v => dsimp only; split <;> exact ⟨rfl, by rw [t1], t2, t3, t4⟩
        · rw [if_neg hv, if_neg hv]
          exact ⟨rfl, rfl, rfl, rfl, h⟩

structure InvP (p : Params E K D) (q : PParams G) (s : PObj M E K D G) : Prop where
  memo : MemoP p q s
  cache : ∀ T P r, s.cacheP = some ((T, P), r) → r = pureP p q s.t.cfg s.pc T P
  tcache : s.t.cache = none
  sel : ∀ m, s.t.cfg.method = some m → ∃ md, s.t.cfg.meths m = some md

theorem evaluate_cache (p : Params E K D) {s : Obj M E K D} (h : Memo p s) (T : ℚ) :
    (evaluate p s T).2.cache = s.cache := (evaluate_spec h T).2.2.1

theorem evaluateTP_tcache {p : Params E K D} {q : PParams G} {s : PObj M E K D G} (h : MemoP p q s)
    (T : ℚ) (P : Option ℚ) : (evaluateTP p q s T P).2.t.cache = s.t.cache := by
  have he := evaluate_cache p h.t T
  cases P with
  | none => exact he
  | some P =>
    unfold evaluateTP evaluateP
    dsimp only
    cases s.pc.methodP with
    | none => rfl
    | some m =>
      dsimp only
      cases s.pc.methsP m with
      | none => rfl
      | some pm =>
        dsimp only
        split
        · unfold calcP
          cases pm with
          | fn f a b =>
            dsimp only
            cases f T P with
            | none => rfl
            | some v => dsimp only; split <;> rfl
          | neglect =>
            dsimp only
            generalize evaluate p s.t T = x at he
            obtain ⟨r, t'⟩ := x
            cases r with
            | val v => dsimp only; split <;> exact he
            | none => exact he
            | raised => exact he
          | table g a b c d =>
            dsimp only
            have ht : (touchP q s m g).t.cache = s.t.cache := by
              unfold touchP; cases s.interpsP m <;> rfl
            by_cases hb : (!q.extrap && (decide (T < a) || decide (b < T) || decide (P < c)
                || decide (d < P))) = true
            · rw [if_pos hb]
            · rw [if_neg hb]
              cases gridFun q s m g T P with
              | none => exact ht
              | some v => dsimp only; split <;> exact ht
        · rfl

theorem callP_inv {p : Params E K D} {q : PParams G} {s : PObj M E K D G} (h : InvP p q s)
    (T : ℚ) (P : Option ℚ) :
    (callP p q s T P).1 = pureP p q s.t.cfg s.pc T P ∧ InvP p q (callP p q s T P).2 := by
  obtain ⟨h1, h2, h3, h4, h5⟩ := evaluateTP_spec h.memo T P
  have h6 := evaluateTP_tcache h.memo T P
  have key : (remember (T, P) (evaluateTP p q s T P)).1 = pureP p q s.t.cfg s.pc T P ∧
      InvP p q (remember (T, P) (evaluateTP p q s T P)).2 := by
    unfold remember
    generalize evaluateTP p q s T P = x at h1 h2 h3 h4 h5 h6
    obtain ⟨r, s'⟩ := x
    dsimp only at h1 h2 h3 h4 h5 h6
    have hsel : ∀ m, s'.t.cfg.method = some m → ∃ md, s'.t.cfg.meths m = some md := by
      rw [h2]; exact h.sel
    have hnew : ∀ T' P' r', some ((T, P), r) = some ((T', P'), r') →
        r' = pureP p q s'.t.cfg s'.pc T' P' := by
      intro T' P' r' hc; cases hc; rw [h2, h3]; exact h1
    cases r with
    | raised =>
      refine ⟨h1, h5, fun T' P' r' hc => ?_, by rw [h6]; exact h.tcache, hsel⟩
      rw [h2, h3]
      exact h.cache T' P' r' (h4 ▸ hc)
    | none => exact ⟨h1, ⟨h5.t, h5.grids⟩, hnew, by dsimp only; rw [h6]; exact h.tcache, hsel⟩
    | val v => exact ⟨h1, ⟨h5.t, h5.grids⟩, hnew, by dsimp only; rw [h6]; exact h.tcache, hsel⟩
  unfold callP
  cases hc : s.cacheP with
  | none => exact key
  | some c =>
    obtain ⟨k, v⟩ := c
    dsimp only
    by_cases hk : (T, P) = k
    · rw [if_pos hk]
      subst hk
      exact ⟨h.cache _ _ _ hc, h⟩
    · rw [if_neg hk]; exact key

/-! ## C15 -/

/-- Histories for which the memo stays right: temperature-side changes are made only while nothing is
memoised (and meet the conditions of C10; there is no temperature-side call), and a pressure table gets a
new name. -/
def SafeP (s : PObj M E K D G) : POp M E D G → Prop
  | .call _ _ => True
  | .setMethodP _ => True
  | .addTableP n _ _ _ _ _ => s.pc.methsP n = none
  | .tOp o => s.cacheP = none ∧ Safe s.t o ∧ ∀ T, o ≠ .call T

def SafeRunP (p : Params E K D) (q : PParams G) (s : PObj M E K D G) : List (POp M E D G) → Prop
  | [] => True
  | o :: os => SafeP s o ∧ SafeRunP p q (stepP p q s o) os

theorem stepP_inv {p : Params E K D} {q : PParams G} {s : PObj M E K D G} (h : InvP p q s)
    (o : POp M E D G) (ho : SafeP s o) : InvP p q (stepP p q s o) := by
  cases o with
  | call T P => exact (callP_inv h T P).2
  | setMethodP m =>
    cases m with
    | none =>
      exact ⟨⟨h.memo.t, h.memo.grids⟩, fun _ _ _ hc => (by cases hc), h.tcache, h.sel⟩
    | some m =>
      unfold stepP setMethodP
      dsimp only
      cases s.pc.methsP m with
      | none => exact h
      | some pm =>
        exact ⟨⟨h.memo.t, h.memo.grids⟩, fun _ _ _ hc => (by cases hc), h.tcache, h.sel⟩
  | addTableP n g a b c d =>
    refine ⟨⟨h.memo.t, fun m f hf => ?_⟩, fun _ _ _ hc => (by cases hc), h.tcache, h.sel⟩
    obtain ⟨g', a', b', c', d', h1, h2⟩ := h.memo.grids m f hf
    have hne : m ≠ n := by
      rintro rfl
      have : s.pc.methsP m = none := ho
      rw [this] at h1; cases h1
    refine ⟨g', a', b', c', d', ?_, h2⟩
    show Function.update s.pc.methsP n _ m = _
    rw [Function.update_of_ne hne]; exact h1
  | tOp o =>
    obtain ⟨hc, hs, hn⟩ := ho
    have hi : Inv p s.t := ⟨h.memo.t, (fun _ _ hh => by rw [h.tcache] at hh; cases hh), h.sel⟩
    have hi' := step_inv hi o hs
    refine ⟨⟨hi'.memo, h.memo.grids⟩, fun _ _ _ hh => ?_, ?_, hi'.sel⟩
    · have : s.cacheP = _ := hh
      rw [hc] at this; cases this
    · show (step p s.t o).cache = none
      have ht := h.tcache
      cases o with
      | call T => exact absurd rfl (hn T)
      | setMethod m =>
        cases m with
        | none => rfl
        | some m =>
          unfold step setMethod
          dsimp only
          cases s.t.cfg.meths m with
          | none => exact ht
          | some md => rfl
      | setExtrapolation e => exact ht
      | addMethod n md => rfl
      | addData fr n md sel =>
        unfold step addData
        dsimp only
        split
        · exact ht
        · cases sel with
          | false => exact ht
          | true =>
            simp [store, setMethod]

theorem runP_inv {p : Params E K D} {q : PParams G} (ops : List (POp M E D G)) :
    ∀ {s : PObj M E K D G}, InvP p q s → SafeRunP p q s ops → InvP p q (runP p q s ops) := by
  induction ops with
  | nil => intro s h _; exact h
  | cons o os ih => intro s h hs; exact ih (stepP_inv h o hs.1) hs.2

theorem inv_newP (p : Params E K D) (q : PParams G) (c : Config M E D) (pc : PConfig M G)
    (hc : ∀ m, c.method = some m → ∃ md, c.meths m = some md) :
    InvP p q (newP c pc : PObj M E K D G) :=
  ⟨⟨memo_new p c, fun _ _ h => (by cases h)⟩, fun _ _ _ h => (by cases h), rfl, hc⟩

/-- **C15 (partial).** After any history of calls at arbitrary `(T, P)` or `(T, None)`, selections of the
pressure-dependent method, additions of pressure tables under new names, and temperature-side changes made
while nothing is memoised, a call answers what a new object with the current configuration answers.
Missing: a change of the temperature-dependent method or of the extrapolation after a call, and the re-use
of a table name; there the claim is false (`C15_method_change_stale`, `C15_readded_table_stale`). -/
theorem C15_cache_unobservable_partial (p : Params E K D) (q : PParams G) (c : Config M E D)
    (pc : PConfig M G) (hc : ∀ m, c.method = some m → ∃ md, c.meths m = some md)
    (ops : List (POp M E D G)) (hs : SafeRunP p q (newP c pc) ops) (T : ℚ) (P : Option ℚ) :
    (callP p q (runP p q (newP c pc) ops) T P).1 =
      (callP p q (newP (runP p q (newP c pc) ops).t.cfg (runP p q (newP c pc) ops).pc) T P).1 := by
  have h := runP_inv ops (inv_newP p q c pc hc) hs
  rw [(callP_inv h T P).1]
  exact (callP_inv (inv_newP p q _ _ h.sel) T P).1.symm

/-- Conditions a pressure-dependent method is used at: a table inside its grid (everywhere when extrapolation of tables is permitted),
`NEGLECT_P` where the selected temperature-dependent method holds, another method strictly between its temperature limits. -/
def UsableP (q : PParams G) (c : Config M E D) (pm : PMeth G) (T P : ℚ) : Prop :=
  (∃ g Tlo Thi Plo Phi, pm = .table g Tlo Thi Plo Phi ∧ (q.extrap = true ∨ (Tlo < T ∧ T < Thi ∧ Plo < P ∧ P < Phi))) ∨
  (pm = .neglect ∧ ∃ m md, c.method = some m ∧ c.meths m = some md ∧ inRange md T = true) ∨
  ∃ f Tmin Tmax, pm = .fn f Tmin Tmax ∧ Tmin < T ∧ T < Tmax

theorem validP_iff (q : PParams G) (c : Config M E D) (pm : PMeth G) (T P : ℚ) :
    validP q c pm T P = true ↔ UsableP q c pm T P := by
  unfold validP UsableP
  cases pm with
  | table g a b c d =>
    simp only [Bool.or_eq_true, Bool.and_eq_true, decide_eq_true_eq, PMeth.table.injEq, reduceCtorEq, false_and, exists_false, or_false,
      exists_and_left, and_assoc]
    constructor
    · intro h; exact ⟨g, rfl, a, rfl, b, rfl, c, rfl, d, rfl, h⟩
    · rintro ⟨_, rfl, _, rfl, _, rfl, _, rfl, _, rfl, h⟩; exact h
  | neglect =>
    simp only [reduceCtorEq, false_and, exists_false, or_false, false_or, true_and]
    unfold tValid
    cases c.method with
    | none => simp
    | some m => cases h : c.meths m <;> simp [h]
  | fn f a b =>
    simp only [Bool.and_eq_true, decide_eq_true_eq, PMeth.fn.injEq, reduceCtorEq, false_and, exists_false, false_or]
    constructor
    · intro h; exact ⟨f, a, b, ⟨rfl, rfl, rfl⟩, h⟩
    · rintro ⟨_, _, _, ⟨rfl, rfl, rfl⟩, h⟩; exact h

/-- The value of the selected pressure-dependent method. -/
def ValueP (p : Params E K D) (q : PParams G) (c : Config M E D) (pm : PMeth G) (T P v : ℚ) : Prop :=
  (∃ g Tlo Thi Plo Phi, pm = .table g Tlo Thi Plo Phi ∧ q.buildP g T P = some v) ∨
  (pm = .neglect ∧ (call p (new c : Obj M E K D) T).1 = .val v) ∨
  ∃ f Tmin Tmax, pm = .fn f Tmin Tmax ∧ f T P = some v

/-- **C11.** The pressure-dependent evaluation of a new object returns `v` exactly when the selected method is used at these conditions, gives
`v` and `v` is within the plausibility bounds. -/
theorem C11_pressure_decision (p : Params E K D) (q : PParams G) (c : Config M E D) (pc : PConfig M G)
    (hc : ∀ m, c.method = some m → ∃ md, c.meths m = some md) (T P v : ℚ) :
    (callP p q (newP c pc : PObj M E K D G) T (some P)).1 = .val v ↔
      ∃ m pm, pc.methodP = some m ∧ pc.methsP m = some pm ∧ UsableP q c pm T P ∧ ValueP p q c pm T P v
        ∧ p.pmin ≤ v ∧ v ≤ p.pmax := by
  have h := callP_inv (inv_newP (K := K) p q c pc hc) T (some P)
  have hcall : (call p (new c : Obj M E K D) T).1 = pureEval p c T := call_of_cache_none (memo_new p c) rfl T
  have hg : ∀ v, giveUp p ≠ .val v := by intro v; unfold giveUp; split <;> simp
  have e1 : (callP p q (newP c pc : PObj M E K D G) T (some P)).1 = pureP p q c pc T (some P) := h.1
  rw [e1]
  unfold pureP
  cases hm : pc.methodP with
  | none => simp [hg]
  | some m =>
    dsimp only
    cases hpm : pc.methsP m with
    | none => simp [hg, hpm]
    | some pm =>
      dsimp only
      have hred : (∃ m' pm', some m = some m' ∧ pc.methsP m' = some pm' ∧ UsableP q c pm' T P ∧ ValueP p q c pm' T P v
          ∧ p.pmin ≤ v ∧ v ≤ p.pmax) ↔ UsableP q c pm T P ∧ ValueP p q c pm T P v ∧ p.pmin ≤ v ∧ v ≤ p.pmax := by
        constructor
        · rintro ⟨m', pm', h1, h2, h3⟩
          cases h1
          rw [hpm] at h2
          cases h2
          exact h3
        · intro h; exact ⟨m, pm, rfl, hpm, h⟩
      rw [hred, ← validP_iff]
      by_cases hv : validP q c pm T P = true
      · rw [if_pos hv]
        simp only [hv, true_and]
        have key : ∀ o : Option ℚ, (∀ v, o = some v ↔ ValueP p q c pm T P v) →
            ((match o with | none => giveUp p | some v => if plausible p v then Res.val v else giveUp p) = .val v ↔
              ValueP p q c pm T P v ∧ p.pmin ≤ v ∧ v ≤ p.pmax) := by
          intro o ho
          rw [← ho v, ← plausible_iff]
          cases o with
          | none => simp [hg]
          | some w =>
            dsimp only
            by_cases hw : plausible p w = true
            · rw [if_pos hw]
              simp only [Res.val.injEq, Option.some.injEq]
              constructor
              · rintro rfl; exact ⟨rfl, hw⟩
              · rintro ⟨rfl, _⟩; rfl
            · rw [if_neg hw]
              simp only [hg, Option.some.injEq, false_iff]
              rintro ⟨rfl, h⟩; exact hw h
        refine key _ fun w => ?_
        unfold ValueP
        cases pm with
        | table g a b c' d =>
          have hb : ¬ (!q.extrap && (decide (T < a) || decide (b < T) || decide (P < c') || decide (d < P))) = true := by
            rw [validP_iff] at hv
            rcases hv with ⟨g', a', b', c2, d', he, h⟩ | ⟨he, _⟩ | ⟨_, _, _, he, _⟩
            · cases he
              rcases h with h | ⟨h1, h2, h3, h4⟩
              · simp [h]
              · simp [not_lt.2 h1.le, not_lt.2 h2.le, not_lt.2 h3.le, not_lt.2 h4.le]
            · cases he
            · cases he
          dsimp only
          rw [if_neg hb]
          simp
        | neglect =>
          dsimp only
          rw [hcall]
          cases pureEval p c T <;> simp
        | fn f a b => simp
      · rw [if_neg hv]
        simp [hv, hg]

/-- Two temperature methods and, as pressure method, the one which neglects pressure. -/
def demoCfg2 : Config ℕ Bool ℚ where
  method := some 0
  meths := fun n => if n = 0 then some ⟨.fn some, some (10, 20), fun _ => true⟩
    else if n = 1 then some ⟨.fn fun T => some (2 * T), some (10, 20), fun _ => true⟩ else none
  ext := some (true, true)

def demoP : PParams ℚ := ⟨fun g _ _ => some g, true⟩

def demoPc : PConfig ℕ ℚ := ⟨some 9, fun n => if n = 9 then some .neglect else none⟩

example : (callP demo demoP (newP demoCfg2 demoPc : PObj ℕ Bool ℚ ℚ ℚ) 15 (some 101325)).1 = .val 15 := by
  decide +kernel

/-- A history meeting the hypotheses of `C15_cache_unobservable_partial`. -/
example : SafeRunP (K := ℚ) demo demoP (newP demoCfg2 demoPc)
    [.tOp (.setMethod (some 1)), .tOp (.setExtrapolation none), .addTableP 3 7 1 2 3 4, .call 15 none,
      .call 15 (some 3), .setMethodP none, .call 25 (some 1), .setMethodP (some 9)] :=
  ⟨⟨rfl, trivial, nofun⟩, ⟨rfl, (fun _ _ h => by cases h), nofun⟩, rfl, trivial, trivial, trivial,
    trivial, trivial, trivial⟩

/-- **C15, the claim fails** when the temperature-dependent method is changed between two calls at the
same conditions: the inherited setter clears `T_cached`, which this class does not use. -/
theorem C15_method_change_stale : ∀ P ∈ [none, some (101325 : ℚ)],
    let s := runP (K := ℚ) demo demoP (newP demoCfg2 demoPc) [.call 15 P, .tOp (.setMethod (some 1))]
    (callP demo demoP s 15 P).1 = .val 15 ∧
      (callP demo demoP (newP s.t.cfg s.pc : PObj ℕ Bool ℚ ℚ ℚ) 15 P).1 = .val 30 := by
  decide +kernel

/-- **C15, the claim fails** when a pressure table is added again under its name after it has been used:
the interpolator of the old table is kept. -/
theorem C15_readded_table_stale :
    let s := runP (K := ℚ) demo demoP (newP demoCfg2 demoPc)
      [.addTableP 3 7 1 2 3 4, .call 1 (some 3), .addTableP 3 8 1 2 3 4]
    (callP demo demoP s 1 (some 3)).1 = .val 7 ∧
      (callP demo demoP (newP s.t.cfg s.pc : PObj ℕ Bool ℚ ℚ ℚ) 1 (some 3)).1 = .val 8 := by
  constructor <;> decide +kernel

end Verif.TDep
