import Mathlib.Data.List.Basic
import Mathlib.Data.Rat.Defs
import Mathlib.Algebra.BigOperators.Group.List.Basic
import Mathlib.Tactic

/-!
# C155: phases and the result they belong to

A phase finds its fraction, its flow and its kind in the result it was put into last, and stores its flow. Modelled:

* `EquilibriumState.__init__` (thermo/equilibrium.py 275-343): the phases of a result, the kinds assigned to them and their `result`;
* `EquilibriumStream.__init__` with `existing_flash` (thermo/stream.py 2755-2766, 2846-2848), also called by `StreamArgs.stream` (1782-1788): the stream takes the phase objects of the flash;
* `Phase.beta`, `beta_mass` (thermo/phases/phase.py 5201-5242), `Phase.n` (5358-5379), `Phase.m` (5384-5404) with the values stored in the phase;
* the kind of phase `Phase.as_EquilibriumState` starts from (5652-5665).

Objects are numbers in a heap. Simplified: the mass fractions `betas_mass` of a result are a parameter (they are properties of the phases); other stored values are left out.
-/

namespace Verif.Ownership

/-- Attributes of a phase object: the result it is in, the kind assigned, the stored `_n` and `_m`. -/
structure Phase where
  owner : Option ℕ := none
  assigned : Option Char := none
  n : Option ℚ := none
  m : Option ℚ := none
deriving DecidableEq

/-- Attributes of a result: its phases in order with their fractions; the flows, which only a stream has. -/
structure Result where
  phases : List ℕ
  betas : List ℚ
  betasMass : List ℚ
  n : Option ℚ := none
  m : Option ℚ := none
deriving DecidableEq

/-- All objects. -/
structure Heap where
  ph : ℕ → Phase
  res : List Result

/-- Arguments of a result. -/
structure New where
  gas : Option ℕ
  liquids : List ℕ
  solids : List ℕ
  betas : List ℚ
  betasMass : List ℚ
  n : Option ℚ := none
  m : Option ℚ := none

/-- The phases in order: gas, liquids, solids (284-288). -/
def New.phases (a : New) : List ℕ := a.gas.toList ++ a.liquids ++ a.solids

/-- The kind assigned to a phase (286, 306-314): solids get none. -/
def New.kind (a : New) (old : Option Char) (p : ℕ) : Option Char :=
  if p ∈ a.liquids then some 'l' else if a.gas = some p then some 'g' else old

/-- A result is made (284-343): its phases refer to it. -/
def make (h : Heap) (a : New) : Heap where
  ph := fun p => if p ∈ a.phases then { h.ph p with owner := some h.res.length, assigned := a.kind (h.ph p).assigned p } else h.ph p
  res := h.res ++ [⟨a.phases, a.betas, a.betasMass, a.n, a.m⟩]

/-- A stream made of an existing result (2760-2764): the same phase objects with other flows. -/
def stream (h : Heap) (r : New) (n m : ℚ) : Heap := make h { r with n := some n, m := some m }

/-- The result a phase is in. -/
def result (h : Heap) (p : ℕ) : Option Result := (h.ph p).owner.bind fun r => h.res[r]?

/-- `beta` (5214-5220) and `beta_mass` (5236-5242): the fraction at the first place of the phase. -/
def beta (h : Heap) (p : ℕ) : Option ℚ := (result h p).bind fun r => if p ∈ r.phases then r.betas[r.phases.idxOf p]? else none
def betaMass (h : Heap) (p : ℕ) : Option ℚ := (result h p).bind fun r => if p ∈ r.phases then r.betasMass[r.phases.idxOf p]? else none

/-- Product of two values that may be missing: an exception, caught with answer `None` (5378, 5403). -/
def times (a b : Option ℚ) : Option ℚ := a.bind fun x => b.map fun y => x * y

/-- What the flows are by the result: its flow times the fraction. -/
def flow (h : Heap) (p : ℕ) : Option ℚ := times ((result h p).bind Result.n) (beta h p)
def massFlow (h : Heap) (p : ℕ) : Option ℚ := times ((result h p).bind Result.m) (betaMass h p)

/-- A phase changed. -/
def setPh (h : Heap) (p : ℕ) (f : Phase → Phase) : Heap := { h with ph := fun q => if q = p then f (h.ph q) else h.ph q }

/-- `n` (5371-5379): the stored flow, else the computed one, which is stored. -/
def askN (h : Heap) (p : ℕ) : Option ℚ × Heap :=
  match (h.ph p).n with
  | some v => (some v, h)
  | none =>
    match flow h p with
    | some v => (some v, setPh h p fun q => { q with n := some v })
    | none => (none, h)

/-- `m` (5397-5404). -/
def askM (h : Heap) (p : ℕ) : Option ℚ × Heap :=
  match (h.ph p).m with
  | some v => (some v, h)
  | none =>
    match massFlow h p with
    | some v => (some v, setPh h p fun q => { q with m := some v })
    | none => (none, h)

/-- The kind `as_EquilibriumState` starts from (5652-5665); `cls` is the kind of the class; `none` is an exception: the assigned kind is read if there is a result. -/
def startKind (h : Heap) (p : ℕ) (cls : Char) : Option Char := if (h.ph p).owner.isSome then (h.ph p).assigned else some cls

/-! ## A new result -/

theorem result_make (h : Heap) (a : New) (p : ℕ) (hp : p ∈ a.phases) : result (make h a) p = some ⟨a.phases, a.betas, a.betasMass, a.n, a.m⟩ := by
  simp [result, make, hp]

/-- **C155.** The phases of a new result find their fractions in it, each the one at its place. -/
theorem C155_fractions (h : Heap) (a : New) (hn : a.phases.Nodup) (i : ℕ) (hi : i < a.phases.length) :
    beta (make h a) a.phases[i] = a.betas[i]? ∧ betaMass (make h a) a.phases[i] = a.betasMass[i]? := by
  have hp : a.phases[i] ∈ a.phases := List.getElem_mem hi
  have hx : a.phases.idxOf a.phases[i] = i := hn.idxOf_getElem i hi
  simp [beta, betaMass, result_make h a _ hp, hp, hx]

/-- **C155.** The gas of a new result is first and has the first fraction. -/
theorem C155_gas (h : Heap) (a : New) (g : ℕ) (hg : a.gas = some g) : beta (make h a) g = a.betas[0]? := by
  have hp : g ∈ a.phases := by simp [New.phases, hg]
  have hx : a.phases.idxOf g = 0 := by simp [New.phases, hg]
  simp [beta, result_make h a _ hp, hp, hx]

/-- **C155.** Gas and liquids of a new result are assigned their kind. -/
theorem C155_kinds (h : Heap) (a : New) (hd : ∀ g, a.gas = some g → g ∉ a.liquids) :
    (∀ g, a.gas = some g → ((make h a).ph g).assigned = some 'g') ∧ ∀ l ∈ a.liquids, ((make h a).ph l).assigned = some 'l' := by
  constructor
  · intro g hg
    have hp : g ∈ a.phases := by simp [New.phases, hg]
    simp [make, hp, New.kind, hd g hg, hg]
  · intro l hl
    have hp : l ∈ a.phases := by simp [New.phases, hl]
    simp [make, hp, New.kind, hl]

/-- **C155 fails.** Solids are assigned no kind: a state made of a solid of a result raises an exception, and a solid that was a liquid of an earlier result is taken for a liquid; one in no result works. -/
theorem C155_solid_fails (h : Heap) (a : New) (s : ℕ) (hs : s ∈ a.solids) (hl : s ∉ a.liquids) (hg : a.gas ≠ some s) :
    startKind (make h a) s 's' = (h.ph s).assigned ∧ ((h.ph s).owner = none → startKind h s 's' = some 's') := by
  have hp : s ∈ a.phases := by simp [New.phases, hs]
  refine ⟨by simp [startKind, make, hp, New.kind, hl, hg], fun ho => by simp [startKind, ho]⟩

/-- **C155.** Phases of other results keep all they have. -/
theorem C155_others (h : Heap) (a : New) (p : ℕ) (hp : p ∉ a.phases) (ho : ∀ r, (h.ph p).owner = some r → r < h.res.length) :
    (make h a).ph p = h.ph p ∧ result (make h a) p = result h p ∧ beta (make h a) p = beta h p ∧ flow (make h a) p = flow h p := by
  have h1 : (make h a).ph p = h.ph p := by simp [make, hp]
  have h2 : result (make h a) p = result h p := by
    unfold result
    rw [h1]
    cases hr : (h.ph p).owner with
    | none => rfl
    | some r =>
      simp only [Option.bind_some, make]
      rw [List.getElem?_append_left (ho r hr)]
  refine ⟨h1, h2, ?_, ?_⟩ <;> simp [beta, flow, h2]

/-! ## Reading -/

theorem result_setPh (h : Heap) (p q : ℕ) (f : Phase → Phase) (hf : (f (h.ph p)).owner = (h.ph p).owner) : result (setPh h p f) q = result h q := by
  by_cases hq : q = p
  · subst hq
    simp [result, setPh, hf]
  · simp [result, setPh, hq]

theorem askN_result (h : Heap) (p q : ℕ) : result (askN h p).2 q = result h q := by
  unfold askN
  split
  · rfl
  · split
    · dsimp only
      rw [result_setPh]
      rfl
    · rfl

theorem askM_result (h : Heap) (p q : ℕ) : result (askM h p).2 q = result h q := by
  unfold askM
  split
  · rfl
  · split
    · dsimp only
      rw [result_setPh]
      rfl
    · rfl

/-- **C155.** Asking for flows changes no fraction and no flow by the results, and asking again gives the same answer. -/
theorem C155_reading (h : Heap) (p q : ℕ) : beta (askN h p).2 q = beta h q ∧ flow (askN h p).2 q = flow h q ∧ massFlow (askN h p).2 q = massFlow h q ∧
    beta (askM h p).2 q = beta h q ∧ flow (askM h p).2 q = flow h q ∧ massFlow (askM h p).2 q = massFlow h q ∧ (askN (askN h p).2 p).1 = (askN h p).1 ∧ (askM (askM h p).2 p).1 = (askM h p).1 := by
  refine ⟨?_, ?_, ?_, ?_, ?_, ?_, ?_, ?_⟩
  · simp [beta, askN_result]
  · simp [flow, beta, askN_result]
  · simp [massFlow, betaMass, askN_result]
  · simp [beta, askM_result]
  · simp [flow, beta, askM_result]
  · simp [massFlow, betaMass, askM_result]
  · cases hn : (h.ph p).n with
    | some v => simp [askN, hn]
    | none =>
      cases hf : flow h p with
      | none => simp [askN, hn, hf]
      | some v => simp [askN, hn, hf, setPh]
  · cases hm : (h.ph p).m with
    | some v => simp [askM, hm]
    | none =>
      cases hf : massFlow h p with
      | none => simp [askM, hm, hf]
      | some v => simp [askM, hm, hf, setPh]

/-! ## Executions -/

/-- Operations of a user. -/
inductive Op where
  | make (a : New)
  | askN (p : ℕ)
  | askM (p : ℕ)

def step (h : Heap) : Op → Heap
  | .make a => make h a
  | .askN p => (askN h p).2
  | .askM p => (askM h p).2

/-- Stored flows are those by the result. -/
def Right (h : Heap) : Prop := ∀ p, (∀ r, (h.ph p).owner = some r → r < h.res.length) ∧ (∀ v, (h.ph p).n = some v → flow h p = some v) ∧ ∀ v, (h.ph p).m = some v → massFlow h p = some v

/-- No phase with a stored flow is put into another result. -/
def Fresh (h : Heap) : Op → Prop
  | .make a => ∀ p ∈ a.phases, (h.ph p).n = none ∧ (h.ph p).m = none
  | _ => True

/-- A run in which each operation is fresh. -/
def FreshRun : Heap → List Op → Prop
  | _, [] => True
  | h, o :: os => Fresh h o ∧ FreshRun (step h o) os

theorem right_step (h : Heap) (hr : Right h) (o : Op) (hf : Fresh h o) : Right (step h o) := by
  cases o with
  | make a =>
    intro p
    obtain ⟨h1, h2, h3⟩ := hr p
    by_cases hp : p ∈ a.phases
    · obtain ⟨hn, hm⟩ := hf p hp
      refine ⟨?_, ?_, ?_⟩
      · intro r hro
        simp only [step, make, hp, if_true, Option.some.injEq] at hro
        subst hro
        simp [step, make]
      · intro v hv
        simp [step, make, hp, hn] at hv
      · intro v hv
        simp [step, make, hp, hm] at hv
    · have ho := C155_others h a p hp h1
      refine ⟨?_, ?_, ?_⟩
      · intro r hro
        rw [show (step h (.make a)).ph p = h.ph p from ho.1] at hro
        have := h1 r hro
        simp only [step, make, List.length_append, List.length_cons, List.length_nil]
        omega
      · intro v hv
        rw [show (step h (.make a)).ph p = h.ph p from ho.1] at hv
        rw [show flow (step h (.make a)) p = flow h p from ho.2.2.2]
        exact h2 v hv
      · intro v hv
        rw [show (step h (.make a)).ph p = h.ph p from ho.1] at hv
        have : massFlow (step h (.make a)) p = massFlow h p := by simp [massFlow, betaMass, step, ho.2.1]
        rw [this]
        exact h3 v hv
  | askN q =>
    intro p
    obtain ⟨h1, h2, h3⟩ := hr p
    have hb := C155_reading h q p
    have hs : ∀ P : Phase → Prop, P (h.ph p) → (p = q → (h.ph p).n = none → ∀ v, flow h p = some v → P { h.ph p with n := some v }) → P ((askN h q).2.ph p) := by
      intro P a b
      unfold askN
      split
      · exact a
      · rename_i hn
        split
        · rename_i v hv
          by_cases hpq : p = q
          · subst hpq
            simp only [setPh, if_true]
            exact b rfl hn v hv
          · simp only [setPh, hpq, if_false]
            exact a
        · exact a
    have hres : (askN h q).2.res = h.res := by
      unfold askN
      split
      · rfl
      · split <;> rfl
    refine ⟨?_, ?_, ?_⟩
    · change ∀ r, ((askN h q).2.ph p).owner = some r → r < (askN h q).2.res.length
      rw [hres]
      exact hs (fun x => ∀ r, x.owner = some r → r < h.res.length) h1 fun _ _ _ _ => h1
    · change ∀ v, ((askN h q).2.ph p).n = some v → flow (askN h q).2 p = some v
      rw [hb.2.1]
      refine hs (fun x => ∀ v, x.n = some v → flow h p = some v) h2 fun _ _ v hv w hw => ?_
      rw [hv]
      exact hw
    · change ∀ v, ((askN h q).2.ph p).m = some v → massFlow (askN h q).2 p = some v
      rw [hb.2.2.1]
      exact hs (fun x => ∀ v, x.m = some v → massFlow h p = some v) h3 fun _ _ _ _ => h3
  | askM q =>
    intro p
    obtain ⟨h1, h2, h3⟩ := hr p
    have hb := C155_reading h q p
    have hs : ∀ P : Phase → Prop, P (h.ph p) → (p = q → (h.ph p).m = none → ∀ v, massFlow h p = some v → P { h.ph p with m := some v }) → P ((askM h q).2.ph p) := by
      intro P a b
      unfold askM
      split
      · exact a
      · rename_i hn
        split
        · rename_i v hv
          by_cases hpq : p = q
          · subst hpq
            simp only [setPh, if_true]
            exact b rfl hn v hv
          · simp only [setPh, hpq, if_false]
            exact a
        · exact a
    have hres : (askM h q).2.res = h.res := by
      unfold askM
      split
      · rfl
      · split <;> rfl
    refine ⟨?_, ?_, ?_⟩
    · change ∀ r, ((askM h q).2.ph p).owner = some r → r < (askM h q).2.res.length
      rw [hres]
      exact hs (fun x => ∀ r, x.owner = some r → r < h.res.length) h1 fun _ _ _ _ => h1
    · change ∀ v, ((askM h q).2.ph p).n = some v → flow (askM h q).2 p = some v
      rw [hb.2.2.2.2.1]
      exact hs (fun x => ∀ v, x.n = some v → flow h p = some v) h2 fun _ _ _ _ => h2
    · change ∀ v, ((askM h q).2.ph p).m = some v → massFlow (askM h q).2 p = some v
      rw [hb.2.2.2.2.2.1]
      refine hs (fun x => ∀ v, x.m = some v → massFlow h p = some v) h3 fun _ _ v hv w hw => ?_
      rw [hv]
      exact hw

/-- Objects before any result is made. -/
def start : Heap := ⟨fun _ => {}, []⟩

theorem right_start : Right start := fun p => ⟨by simp [start], by simp [start], by simp [start]⟩

/-- **C155.** In any run in which no phase with a stored flow is put into another result, the flows phases answer are those of the result they are in: its flow times their fraction, and `None` without a flow. -/
theorem C155_run (os : List Op) (hf : FreshRun start os) (p : ℕ) :
    (askN (os.foldl step start) p).1 = flow (os.foldl step start) p ∧ (askM (os.foldl step start) p).1 = massFlow (os.foldl step start) p := by
  have key : ∀ (os : List Op) (h : Heap), Right h → FreshRun h os → Right (os.foldl step h) := by
    intro os
    induction os with
    | nil => intro h hr _; exact hr
    | cons o os ih => intro h hr hf; exact ih _ (right_step h hr o hf.1) hf.2
  have hr := key os start right_start hf p
  constructor
  · unfold askN
    split
    · rename_i v hv
      exact (hr.2.1 v hv).symm
    · split
      · rename_i v hv
        exact hv.symm
      · rename_i hv
        exact hv.symm
  · unfold askM
    split
    · rename_i v hv
      exact (hr.2.2 v hv).symm
    · split
      · rename_i v hv
        exact hv.symm
      · rename_i hv
        exact hv.symm

/-- **C155.** Right after a stream is made of phases without stored flows, the flows of its phases add up to the flow of the stream times the sum of the fractions. -/
theorem C155_total (h : Heap) (a : New) (n m : ℚ) (hn : a.phases.Nodup) (hl : a.betas.length = a.phases.length) (hf : ∀ p ∈ a.phases, (h.ph p).n = none) :
    (a.phases.map fun p => ((askN (stream h a n m) p).1.getD 0)).sum = n * a.betas.sum := by
  have hv : ∀ i (hi : i < a.phases.length), (askN (stream h a n m) a.phases[i]).1 = some (n * a.betas[i]) := by
    intro i hi
    have hp : a.phases[i] ∈ a.phases := List.getElem_mem hi
    have h1 : ((stream h a n m).ph a.phases[i]).n = none := by
      have : (stream h a n m).ph a.phases[i] = { h.ph a.phases[i] with owner := some h.res.length, assigned := a.kind (h.ph a.phases[i]).assigned a.phases[i] } := by
        change (if a.phases[i] ∈ a.phases then _ else _) = _
        rw [if_pos hp]
        rfl
      rw [this]
      exact hf _ hp
    have h2 := (C155_fractions h { a with n := some n, m := some m } hn i hi).1
    have h3 : flow (stream h a n m) a.phases[i] = some (n * a.betas[i]) := by
      have h4 : beta (stream h a n m) a.phases[i] = some a.betas[i] := by
        rw [show beta (stream h a n m) a.phases[i] = a.betas[i]? from h2]
        simp
      have h5 := result_make h { a with n := some n, m := some m } a.phases[i] hp
      unfold flow
      rw [h4, show result (stream h a n m) a.phases[i] = _ from h5]
      rfl
    simp [askN, h1, h3]
  have : (a.phases.map fun p => ((askN (stream h a n m) p).1.getD 0)) = a.betas.map fun b => n * b := by
    apply List.ext_getElem (by simp [hl])
    intro i h1 h2
    simp only [List.length_map] at h1
    simp [hv i h1]
  rw [this, List.sum_map_mul_left]
  simp

/-- **C155.** A flash without flows stores none in its phases: a stream made of it has the right flows, even if its phases were asked before. -/
theorem C155_from_state (h : Heap) (a : New) (n m : ℚ) (ha : a.n = none) (p : ℕ) (hp : p ∈ a.phases) (hf : (h.ph p).n = none) :
    (askN (make h a) p).1 = none ∧ (askN (make h a) p).2 = make h a ∧ (askN (stream (askN (make h a) p).2 a n m) p).1 = times (some n) (beta (make h a) p) := by
  have h1 : ((make h a).ph p).n = none := by simp [make, hp, hf]
  have h2 : flow (make h a) p = none := by simp [flow, result_make h a p hp, ha, times]
  have h3 : askN (make h a) p = (none, make h a) := by simp [askN, h1, h2]
  rw [h3]
  refine ⟨rfl, rfl, ?_⟩
  have hp' : p ∈ ({ a with n := some n, m := some m } : New).phases := hp
  have h4 : ((stream (make h a) a n m).ph p).n = none := by
    unfold stream
    rw [make]
    simp only [hp', if_true]
    exact h1
  have h5 : flow (stream (make h a) a n m) p = times (some n) (beta (make h a) p) := by
    have r1 := result_make (make h a) { a with n := some n, m := some m } p hp'
    have r2 := result_make h a p hp
    simp only [flow, beta, stream, r1, r2]
    rfl
  have h6 : (askN (stream (make h a) a n m) p).1 = flow (stream (make h a) a n m) p := by
    unfold askN
    rw [h4]
    split
    · rename_i h; cases h
    · split <;> simp_all
  rw [h6, h5]

/-- **C155 fails.** A phase that has told its flow keeps it: a second stream of another flow made of the first one has the flows of the first in all phases asked before, whatever its own flow. -/
theorem C155_stale_fails (h : Heap) (a : New) (n n' m m' : ℚ) (p : ℕ) (v : ℚ) (hv : (askN (stream h a n m) p).1 = some v) :
    (askN (stream (askN (stream h a n m) p).2 a n' m') p).1 = some v := by
  have h1 : ((askN (stream h a n m) p).2.ph p).n = some v := by
    cases hn : ((stream h a n m).ph p).n with
    | some w => simp only [askN, hn] at hv ⊢; exact hv
    | none =>
      cases hfl : flow (stream h a n m) p with
      | none => simp [askN, hn, hfl] at hv
      | some w => simp only [askN, hn, hfl] at hv ⊢; simpa [setPh] using hv
  have h2 : ((stream (askN (stream h a n m) p).2 a n' m').ph p).n = some v := by
    unfold stream
    rw [make]
    dsimp only
    split
    · exact h1
    · exact h1
  generalize stream (askN (stream h a n m) p).2 a n' m' = g at h2 ⊢
  unfold askN
  rw [h2]

/-- **C155 fails.** A stream takes its phases from the flash it is made of: the first stream, whose phases were not asked, then answers with the flows of the second. -/
theorem C155_taken_fails (h : Heap) (a : New) (n n' m m' : ℚ) (p : ℕ) (hp : p ∈ a.phases) : flow (stream (stream h a n m) a n' m') p = times (some n') (beta (stream h a n m) p) ∧
    flow (stream h a n m) p = times (some n) (beta (stream h a n m) p) := by
  have r1 := result_make (stream h a n m) { a with n := some n', m := some m' } p hp
  have r2 := result_make h { a with n := some n, m := some m } p hp
  constructor
  · simp only [flow, beta]
    rw [show result (stream (stream h a n m) a n' m') p = _ from r1, show result (stream h a n m) p = _ from r2]
    rfl
  · simp only [flow]
    rw [show result (stream h a n m) p = _ from r2]
    rfl

/-! ## Examples -/

/-- Gas 0, liquids 1 and 2, solid 3. -/
def four : New where
  gas := some 0
  liquids := [1, 2]
  solids := [3]
  betas := [1/2, 1/4, 1/8, 1/8]
  betasMass := [1/4, 1/4, 1/4, 1/4]

example : four.phases.Nodup ∧ four.betas.length = four.phases.length ∧ ∀ g, four.gas = some g → g ∉ four.liquids := by
  refine ⟨by decide, by decide, ?_⟩
  intro g hg
  obtain rfl : 0 = g := Option.some.inj hg
  decide
example : (beta (make start four) 0, beta (make start four) 2, beta (make start four) 3, beta (make start four) 4) = (some (1/2), some (1/8), some (1/8), none) := by decide +kernel
example : (askN (stream start four 8 4) 0).1 = some 4 ∧ (askM (stream start four 8 4) 3).1 = some 1 ∧ (askN (make start four) 0).1 = none := by decide +kernel
/-- The second stream has a flow of 80: asked before, its gas has a flow of 4; asked now for the first time, 40. -/
example : (askN (stream (askN (stream start four 8 4) 0).2 four 80 40) 0).1 = some 4 ∧ (askN (stream (stream start four 8 4) four 80 40) 0).1 = some 40 := by decide +kernel
example : startKind (make start four) 3 's' = none ∧ startKind start 3 's' = some 's' ∧ startKind (make start four) 1 'l' = some 'l' := by decide +kernel
/-- A solid that was the liquid of an earlier result. -/
example : startKind (make (make start ⟨none, [3], [], [1], [1], none, none⟩) four) 3 's' = some 'l' := by decide +kernel
example : FreshRun start [.make four, .askN 0, .make ⟨some 7, [], [], [1], [1], some 5, none⟩, .askN 7] := by
  refine ⟨?_, trivial, ?_, trivial, trivial⟩
  · intro p _
    exact ⟨rfl, rfl⟩
  · intro p hp
    simp only [New.phases, Option.toList, List.append_nil, List.mem_singleton] at hp
    subst hp
    exact ⟨by decide +kernel, by decide +kernel⟩
example : (askN ([Op.make four, .askN 0, .make ⟨some 7, [], [], [1], [1], some 5, none⟩].foldl step start) 7).1 = some 5 := by decide +kernel

end Verif.Ownership
