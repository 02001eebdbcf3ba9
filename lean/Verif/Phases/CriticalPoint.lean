import Verif.Eos.MixEquil
import Mathlib.Tactic

/-!
# Mechanical critical point of phases and of bulks

C160: the mechanical critical temperature, pressure, volume and compressibility of a phase belong to one state, in which the pressure has
neither slope nor curvature over volume, and those of a bulk follow from them.

* `thermo/phases/phase.py`: `dP_drho` (3357-3371), `d2P_drho2` (3389-3405), `_set_mechanical_critical_point` (4133-4177),
  `Tmc`, `Pmc`, `Vmc`, `Zmc` (4179-4233);
* `thermo/phases/ceos.py`: `_set_mechanical_critical_point` (383-392), with `to_mechanical_critical_point` (`eos_mix.py` 802-819);
* `thermo/phases/ideal_gas.py`: `dP_dV` (341-353), `d2P_dV2` (372-385);
* `thermo/bulk.py`: `Tmc`, `Pmc`, `Vmc`, `Zmc` (1626-1672).

The Newton iteration is a partial function that returns its answer together with the points at which it called the function, in order; its
iterations are not modelled. An exception is `none`. Attributes written before an exception stay.
-/

namespace Verif.CriticalPoint

open Finset Verif.Cubic

/-! ## Guesses -/

/-- Critical constants as stored: entries may be missing. -/
structure Source where
  (Tcs Pcs : List (Option ℝ))

/-- All entries of a list, none if one is missing. -/
def entries : List (Option ℝ) → Option (List ℝ)
  | [] => some []
  | none :: _ => none
  | some x :: l => (entries l).map (x :: ·)

open Classical in
/-- `sqrt` of each critical temperature (4148); a negative one raises. -/
noncomputable def roots (l : List ℝ) : Option (List ℝ) := if ∀ x ∈ l, 0 ≤ x then some (l.map Real.sqrt) else none

/-- The sums of 4144-4153, given the numbers. -/
noncomputable def sums (N : ℕ) (rts Pcs : List ℝ) (zs : ℕ → ℝ) : ℝ × ℝ :=
  (∑ i ∈ range N, (∑ j ∈ range N, zs j * rts.getD j 0) * rts.getD i 0 * zs i, ∑ i ∈ range N, Pcs.getD i 0 * zs i)

/-- The guesses (4136-4156): the constants of the phase, of its equation of state, or of the package; any exception gives the defaults. The
lists are taken to have `N` entries if they have enough. -/
noncomputable def guesses (N : ℕ) (zs : ℕ → ℝ) (own eos package : Option Source) : ℝ × ℝ :=
  let r : Option (ℝ × ℝ) := do
    let s ← (own <|> eos <|> package)
    let P ← entries s.Pcs
    let T ← entries s.Tcs
    let rts ← roots T
    if P.length < N ∨ rts.length < N then none else some (sums N rts P zs)
  r.getD (300, 1000000)

theorem entries_some (l : List ℝ) : entries (l.map some) = some l := by
  induction l with
  | nil => rfl
  | cons x l ih => simp [entries, ih]

theorem entries_none (l : List (Option ℝ)) (h : none ∈ l) : entries l = none := by
  induction l with
  | nil => cases h
  | cons x l ih =>
    cases x with
    | none => rfl
    | some y =>
      have : none ∈ l := by simpa using h
      simp [entries, ih this]

/-- **C160.** With complete constants the guesses of a phase are those of the equation of state of a mixture: the square of the mean root of
the critical temperatures, and the mean critical pressure. -/
theorem C160_guess {N : ℕ} (z Tc Pc : Fin N → ℝ) (hT : ∀ i, 0 ≤ Tc i) (zs : ℕ → ℝ) (hz : ∀ i : Fin N, zs i = z i) (eos package : Option Source) :
    let g := guesses N zs (some ⟨(List.ofFn Tc).map some, (List.ofFn Pc).map some⟩) eos package
    g.1 = (∑ i, z i * √(Tc i)) ^ 2 ∧ g.1 = MixEquil.guessT z Tc ∧ g.2 = MixEquil.guessP z Pc := by
  intro g
  have hr : roots (List.ofFn Tc) = some ((List.ofFn Tc).map Real.sqrt) := by
    unfold roots
    rw [if_pos]
    intro x hx
    obtain ⟨i, rfl⟩ := (List.mem_ofFn' Tc x).mp hx
    exact hT i
  have hg : g = sums N ((List.ofFn Tc).map Real.sqrt) (List.ofFn Pc) zs := by
    show Option.getD ((entries ((List.ofFn Pc).map some)).bind fun P => (entries ((List.ofFn Tc).map some)).bind fun T =>
      (roots T).bind fun rts => if P.length < N ∨ rts.length < N then none else some (sums N rts P zs)) (300, 1000000) = _
    rw [entries_some, entries_some, Option.bind_some, Option.bind_some, hr, Option.bind_some, if_neg (by simp), Option.getD_some]
  have e1 : g.1 = (∑ i, z i * √(Tc i)) ^ 2 := by
    rw [hg]
    simp only [sums]
    rw [Finset.sum_range, sq, Finset.sum_mul_sum]
    refine Finset.sum_congr rfl fun i _ => ?_
    rw [Finset.sum_range, Finset.sum_mul, Finset.sum_mul]
    refine Finset.sum_congr rfl fun j _ => ?_
    simp [List.getD_eq_getElem?_getD, hz]
    ring
  refine ⟨e1, ?_, ?_⟩
  · rw [e1]
    unfold MixEquil.guessT
    rw [sq, Finset.sum_mul_sum]
    refine Finset.sum_congr rfl fun i _ => Finset.sum_congr rfl fun j _ => ?_
    rw [Real.sqrt_mul (hT i)]
    ring
  · rw [hg]
    simp only [sums, MixEquil.guessP]
    rw [Finset.sum_range]
    refine Finset.sum_congr rfl fun i _ => ?_
    simp [List.getD_eq_getElem?_getD, hz]

example : ∀ i : Fin 2, 0 ≤ (![190, 305] : Fin 2 → ℝ) i := by intro i; fin_cases i <;> norm_num

/-- **C160 fails.** One missing critical pressure or temperature replaces both guesses by 300 K and 1 MPa, even if the component is absent from the
phase, and the constants of the package are not looked at. -/
theorem C160_guess_fails (N : ℕ) (zs : ℕ → ℝ) (s : Source) (h : none ∈ s.Tcs ∨ none ∈ s.Pcs) (eos package : Option Source) :
    guesses N zs (some s) eos package = (300, 1000000) := by
  unfold guesses
  have e : (do
      let s ← ((some s : Option Source) <|> eos <|> package)
      let P ← entries s.Pcs
      let T ← entries s.Tcs
      let rts ← roots T
      if P.length < N ∨ rts.length < N then none else some (sums N rts P zs)) = (none : Option (ℝ × ℝ)) := by
    rcases h with h | h
    · cases hp : entries s.Pcs <;> simp [hp, entries_none _ h]
    · simp [entries_none _ h]
  simp only [e, Option.getD_none]

example : none ∈ (⟨[some 190, some 305], [some 4600000, none]⟩ : Source).Tcs ∨ none ∈ (⟨[some 190, some 305], [some 4600000, none]⟩ : Source).Pcs :=
  Or.inr (by simp)

/-! ## What is solved -/

/-- `dP_drho` (3370-3371). -/
def dPdrho (V P1 : ℝ) : ℝ := -V * V * P1

/-- `d2P_drho2` (3404-3405). -/
def d2Pdrho2 (V P1 P2 : ℝ) : ℝ := V * V * V * (V * P2 + 2 * P1)

/-- **C160.** The two equations hold exactly if the pressure has neither slope nor curvature over volume. -/
theorem C160_equations {V : ℝ} (hV : V ≠ 0) (P1 P2 : ℝ) : (dPdrho V P1 = 0 ∧ d2Pdrho2 V P1 P2 = 0) ↔ (P1 = 0 ∧ P2 = 0) := by
  unfold dPdrho d2Pdrho2
  constructor
  · rintro ⟨h1, h2⟩
    have e1 : P1 = 0 := by
      have : V * V * P1 = 0 := by linarith
      rcases mul_eq_zero.mp this with h | h
      · exact absurd (mul_self_eq_zero.mp h) hV
      · exact h
    subst e1
    have : V ^ 4 * P2 = 0 := by linarith
    exact ⟨rfl, (mul_eq_zero.mp this).resolve_left (pow_ne_zero 4 hV)⟩
  · rintro ⟨rfl, rfl⟩
    constructor <;> ring

/-- **C160.** The equations are the first and second derivatives of pressure by density. -/
theorem C160_density {p p1 : ℝ → ℝ} {rho P2 : ℝ} (hr : 0 < rho) (h1 : ∀ v, 0 < v → HasDerivAt p (p1 v) v) (h2 : HasDerivAt p1 P2 (1 / rho)) :
    (∀ r, 0 < r → HasDerivAt (fun r => p (1 / r)) (dPdrho (1 / r) (p1 (1 / r))) r)
      ∧ HasDerivAt (fun r => dPdrho (1 / r) (p1 (1 / r))) (d2Pdrho2 (1 / rho) (p1 (1 / rho)) P2) rho := by
  have hi : ∀ r : ℝ, 0 < r → HasDerivAt (fun r : ℝ => 1 / r) (-(1 / r) * (1 / r)) r := by
    intro r hr
    have := hasDerivAt_inv hr.ne'
    simp only [one_div]
    refine this.congr_deriv ?_
    field_simp
  constructor
  · intro r hr
    refine ((h1 _ (one_div_pos.mpr hr)).comp r (hi r hr)).congr_deriv ?_
    unfold dPdrho
    ring
  · unfold dPdrho
    have a := hi rho hr
    refine (((a.fun_neg.fun_mul a).fun_mul (h2.comp rho a))).congr_deriv ?_
    simp only [Function.comp_apply, d2Pdrho2]
    ring

example : ∃ p p1 : ℝ → ℝ, (∀ v, 0 < v → HasDerivAt p (p1 v) v) ∧ HasDerivAt p1 2 (1 / 1) :=
  ⟨fun v => v ^ 2, fun v => 2 * v, fun v _ => by simpa using hasDerivAt_pow 2 v, by simpa using (hasDerivAt_id (1 : ℝ)).const_mul 2⟩

/-- An ideal gas (`ideal_gas.py` 353, 385). -/
noncomputable def gasP1 (R T P : ℝ) : ℝ := -P * P / (R * T)

@[inherit_doc gasP1] noncomputable def gasP2 (R T P : ℝ) : ℝ := 2 * P * P * P / (R ^ 2 * T * T)

/-- **C160.** An ideal gas has no mechanical critical point: its second equation holds at every state and the first is the gas constant times
temperature, so that an answer accepted with a tolerance is closer to absolute zero than the tolerance over the gas constant. -/
theorem C160_ideal {R T P tol : ℝ} (hR : 0 < R) (hT : T ≠ 0) (hP : P ≠ 0) :
    d2Pdrho2 (R * T / P) (gasP1 R T P) (gasP2 R T P) = 0 ∧ dPdrho (R * T / P) (gasP1 R T P) = R * T
      ∧ (|dPdrho (R * T / P) (gasP1 R T P)| < tol → |T| < tol / R) := by
  have e : dPdrho (R * T / P) (gasP1 R T P) = R * T := by
    unfold dPdrho gasP1
    have := hR.ne'
    field_simp
  refine ⟨?_, e, fun h => ?_⟩
  · unfold d2Pdrho2 gasP1 gasP2
    have := hR.ne'
    field_simp
    ring
  · rw [e, abs_mul, abs_of_pos hR] at h
    rw [lt_div_iff₀ hR]
    linarith

example : |dPdrho (8 * (1 / 100) / 5) (gasP1 8 (1 / 100) 5)| < (1 : ℝ) := by
  rw [(C160_ideal (tol := 1) (by norm_num) (by norm_num) (by norm_num)).2.1]
  norm_num

/-! ## The attributes -/

/-- `_mechanical_critical_T`, `_mechanical_critical_P`, `_mechanical_critical_V`. -/
structure Memo where
  (T P V : Option ℝ)

/-- A phase just made. -/
def blank : Memo := ⟨none, none, none⟩

/-- The Newton iteration: the points at which the function is called, and the answer. -/
structure Run where
  called : List (ℝ × ℝ)
  answer : Option (ℝ × ℝ)

/-- `Phase._set_mechanical_critical_point` (4159-4177). The volume is that of the phase made by the last call of the function. -/
def setPhase (run : Run) (vol : ℝ × ℝ → ℝ) (m : Memo) : Bool × Memo :=
  match run.answer, run.called.getLast? with
  | some (T, P), some q => (true, ⟨some T, some P, some (vol q)⟩)
  | _, _ => (false, m)

/-- `CEOSPhase._set_mechanical_critical_point` (383-392): `vl`, `vg` are the attributes `V_l`, `V_g` of the new equation of state. -/
def setCeos (answer : Option (ℝ × ℝ)) (vl vg : ℝ × ℝ → Option ℝ) (m : Memo) : Bool × Memo :=
  match answer with
  | none => (false, m)
  | some (T, P) =>
    match vl (T, P) with
    | some V => (true, ⟨some T, some P, some V⟩)
    | none =>
      match vg (T, P) with
      | some V => (true, ⟨some T, some P, some V⟩)
      | none => (false, ⟨some T, some P, m.V⟩)

/-- Which property. -/
inductive Q | T | P | V
  deriving DecidableEq

/-- The attribute of a property. -/
def Memo.get (m : Memo) : Q → Option ℝ
  | .T => m.T
  | .P => m.P
  | .V => m.V

/-- `Tmc`, `Pmc`, `Vmc` (4179-4222). -/
def getter (set : Memo → Bool × Memo) (q : Q) (m : Memo) : Option ℝ × Memo :=
  match m.get q with
  | some x => (some x, m)
  | none => let r := set m; (if r.1 then r.2.get q else none, r.2)

/-- Calls one after the other. -/
def calls (set : Memo → Bool × Memo) : List Q → Memo → List (Option ℝ) × Memo
  | [], m => ([], m)
  | q :: qs, m => let r := getter set q m; let t := calls set qs r.2; (r.1 :: t.1, t.2)

/-- `Zmc` (4224-4233). -/
noncomputable def zmc (R : ℝ) (set : Memo → Bool × Memo) (m : Memo) : Option ℝ :=
  match getter set .P m with
  | (some P, m1) =>
    match getter set .V m1 with
    | (some V, m2) => (getter set .T m2).1.map fun T => P * V / (R * T)
    | _ => none
  | _ => none

/-- A setter that always finds the same point. -/
def Finds (set : Memo → Bool × Memo) (T P V : ℝ) : Prop := ∀ m, set m = (true, ⟨some T, some P, some V⟩)

/-- The three numbers by property. -/
def pick (T P V : ℝ) : Q → ℝ
  | .T => T
  | .P => P
  | .V => V

theorem calls_full (set : Memo → Bool × Memo) (T P V : ℝ) (qs : List Q) :
    calls set qs ⟨some T, some P, some V⟩ = (qs.map fun q => some (pick T P V q), ⟨some T, some P, some V⟩) := by
  induction qs with
  | nil => rfl
  | cons q qs ih => cases q <;> simp [calls, getter, Memo.get, ih, pick]

/-- **C160.** In whatever order the properties are asked for, they are those of one point, and the compressibility is theirs. -/
theorem C160_order {set : Memo → Bool × Memo} {T P V : ℝ} (h : Finds set T P V) (qs : List Q) (R : ℝ) :
    (calls set qs blank).1 = qs.map (fun q => some (pick T P V q)) ∧ zmc R set blank = some (P * V / (R * T)) := by
  constructor
  · cases qs with
    | nil => rfl
    | cons q qs =>
      have e : getter set q blank = (some (pick T P V q), ⟨some T, some P, some V⟩) := by
        cases q <;> simp [getter, blank, Memo.get, h _, pick]
      simp [calls, e, calls_full]
  · simp [zmc, getter, blank, Memo.get, h _]

/-- **C160.** If the iteration fails, every property raises and nothing is stored. -/
theorem C160_failure {set : Memo → Bool × Memo} (h : set blank = (false, blank)) (qs : List Q) (R : ℝ) :
    calls set qs blank = (qs.map fun _ => none, blank) ∧ zmc R set blank = none := by
  constructor
  · induction qs with
    | nil => rfl
    | cons q qs ih =>
      have e : getter set q blank = (none, blank) := by
        have hb : blank.get q = none := by cases q <;> rfl
        simp [getter, hb, h]
      simp [calls, e, ih]
  · have hb : blank.get .P = none := rfl
    simp [zmc, getter, hb, h]

/-- **C160, partial.** A phase: an answer whose last call was at the answer gives temperature, pressure and volume of one state, at which the equations
hold as well as they did in that call. Missing: iterations that call the function elsewhere after the answer. -/
theorem C160_phase_partial {run : Run} {vol P1 P2 : ℝ × ℝ → ℝ} {T P tol : ℝ} (ha : run.answer = some (T, P)) (hl : run.called.getLast? = some (T, P))
    (hc : ∀ q, run.called.getLast? = some q → |dPdrho (vol q) (P1 q)| < tol ∧ |d2Pdrho2 (vol q) (P1 q) (P2 q)| < tol) (qs : List Q) (R : ℝ) :
    (calls (setPhase run vol) qs blank).1 = qs.map (fun q => some (pick T P (vol (T, P)) q))
      ∧ zmc R (setPhase run vol) blank = some (P * vol (T, P) / (R * T))
      ∧ |dPdrho (vol (T, P)) (P1 (T, P))| < tol ∧ |d2Pdrho2 (vol (T, P)) (P1 (T, P)) (P2 (T, P))| < tol := by
  have hf : Finds (setPhase run vol) T P (vol (T, P)) := fun m => by simp [setPhase, ha, hl]
  obtain ⟨h1, h2⟩ := C160_order hf qs R
  exact ⟨h1, h2, hc _ hl⟩

/-- **C160 fails.** The volume is not looked up at the answer: if the last call was elsewhere, as in a matrix of differences, it is the volume of that
other state. -/
theorem C160_last_fails : ∃ (run : Run) (vol : ℝ × ℝ → ℝ), run.answer = some (8, 1) ∧ (8, 1) ∈ run.called
    ∧ ∃ V, (getter (setPhase run vol) .V blank).1 = some V ∧ V ≠ vol (8, 1) :=
  ⟨⟨[(8, 1), (8, 2)], some (8, 1)⟩, fun q => q.1 / q.2, rfl, by simp, 4, by
    norm_num [getter, blank, Memo.get, setPhase], by norm_num⟩

/-- Volumes of the cubic equation at a temperature and pressure. -/
def IsVolume (R b delta epsilon a T P V : ℝ) : Prop :=
  poly (coefB R T P b delta) (coefC R T P b delta epsilon a) (coefD R T P b epsilon a) (P * V / (R * T)) = 0

/-- **C160.** A cubic equation of state: at an exact solution the volume does not depend on which of `V_l` and `V_g` exists, pressure has neither slope nor
curvature there, and three times the compressibility is one plus the pressure over gas constant and temperature times the covolume less `delta`. -/
theorem C160_ceos {R b delta epsilon a a1 T P : ℝ} (hR : R ≠ 0) (hT : T ≠ 0) (hP : P ≠ 0)
    (hF : (MixEquil.crit R T P b delta epsilon a a1).F1 = 0 ∧ (MixEquil.crit R T P b delta epsilon a a1).F2 = 0)
    {vl vg : ℝ × ℝ → Option ℝ} (hl : ∀ V, vl (T, P) = some V → IsVolume R b delta epsilon a T P V)
    (hg : ∀ V, vg (T, P) = some V → IsVolume R b delta epsilon a T P V) (hs : vl (T, P) ≠ none ∨ vg (T, P) ≠ none) (qs : List Q) :
    ∃ V, (calls (setCeos (some (T, P)) vl vg) qs blank).1 = qs.map (fun q => some (pick T P V q))
      ∧ (∀ W, IsVolume R b delta epsilon a T P W → W = V)
      ∧ (V ≠ b → V ^ 2 + delta * V + epsilon ≠ 0 → pressure R T b delta epsilon a V = P ∧ deriv (pressure R T b delta epsilon a) V = 0
        ∧ deriv (deriv (pressure R T b delta epsilon a)) V = 0)
      ∧ ∃ Z, zmc R (setCeos (some (T, P)) vl vg) blank = some Z ∧ 3 * Z = 1 + (b - delta) * P / (R * T) := by
  obtain ⟨z, hz⟩ := (MixEquil.C107_triple_root a1 hR hT).mp hF
  have hB : z = -coefB R T P b delta / 3 := by
    have h0 := hz 0
    have h1 := hz 1
    have h2 := hz (-1)
    simp only [poly] at h0 h1 h2
    linear_combination (1 / 6 : ℝ) * h1 + 1 / 6 * h2 - 1 / 3 * h0
  have hu : ∀ W, IsVolume R b delta epsilon a T P W → W = z * (R * T / P) := by
    intro W hW
    unfold IsVolume at hW
    rw [hz] at hW
    have : P * W / (R * T) - z = 0 := by simpa using hW
    have e : z = P * W / (R * T) := by linarith
    rw [e]
    field_simp
  have hf : Finds (setCeos (some (T, P)) vl vg) T P (z * (R * T / P)) := by
    intro m
    unfold setCeos
    dsimp only
    cases h1 : vl (T, P) with
    | some V => rw [hu V (hl V h1)]
    | none =>
      cases h2 : vg (T, P) with
      | some V => rw [hu V (hg V h2)]
      | none => simp [h1, h2] at hs
  refine ⟨z * (R * T / P), (C160_order hf qs R).1, hu, fun h1 h2 => ?_, _, (C160_order hf qs R).2, ?_⟩
  · exact (MixEquil.C107_critical a1 hR hT hP (sub_ne_zero.mpr h1) h2).mpr ⟨hF.1, hF.2, by rw [hB]⟩
  · rw [hB]
    simp only [coefB]
    field_simp
    ring

/-- Van der Waals' equation with the critical point 8, 1, 3. -/
example : ∃ V, (calls (setCeos (some (8, 1)) (fun _ => none) fun _ => some 3) [.T, .P, .V] blank).1 = [some 8, some 1, some V] ∧ V = 3
    ∧ zmc 1 (setCeos (some (8, 1)) (fun _ => none) fun _ => some 3) blank = some (3 / 8) := by
  refine ⟨3, rfl, rfl, ?_⟩
  norm_num [zmc, getter, blank, Memo.get, setCeos]

example : ((MixEquil.crit 1 8 1 1 0 0 27 0).F1 = 0 ∧ (MixEquil.crit 1 8 1 1 0 0 27 0).F2 = 0) ∧ IsVolume 1 1 0 0 27 8 1 3 := by
  refine ⟨by norm_num [MixEquil.crit], ?_⟩
  norm_num [IsVolume, poly, coefB, coefC, coefD]

/-- **C160 fails.** Away from an exact solution there can be several volumes and the one stored depends on which attribute exists: van der Waals'
equation two percent below its critical temperature. -/
theorem C160_tolerance_fails : ∃ T P Vl Vg : ℝ, 0.95 < T / 8 ∧ T < 8 ∧ 0 < P ∧ IsVolume 1 1 0 0 27 T P Vl ∧ IsVolume 1 1 0 0 27 T P Vg ∧ Vl < Vg
    ∧ (getter (setCeos (some (T, P)) (fun _ => some Vl) fun _ => some Vg) .V blank).1 = some Vl
    ∧ (getter (setCeos (some (T, P)) (fun _ => none) fun _ => some Vg) .V blank).1 = some Vg := by
  refine ⟨63 / 8, 15 / 16, 12 / 5, 4, ?_, ?_, ?_, ?_, ?_, ?_, ?_, ?_⟩
  all_goals first
    | rfl
    | (unfold IsVolume; norm_num [poly, coefB, coefC, coefD]; done)
    | norm_num

/-- A search that raises leaves nothing behind: every getter raises, in any order and as often as it is called. -/
theorem C160_raises {run : Run} (h : run.answer = none ∨ run.called = []) (vol : ℝ × ℝ → ℝ) (vl vg : ℝ × ℝ → Option ℝ) (qs : List Q) (R : ℝ) :
    setPhase run vol blank = (false, blank) ∧ setCeos none vl vg blank = (false, blank)
      ∧ calls (setPhase run vol) qs blank = (qs.map fun _ => none, blank) ∧ zmc R (setPhase run vol) blank = none
      ∧ calls (setCeos none vl vg) qs blank = (qs.map fun _ => none, blank) ∧ zmc R (setCeos none vl vg) blank = none := by
  have h1 : setPhase run vol blank = (false, blank) := by
    unfold setPhase
    rcases h with h | h
    · rw [h]
    · rw [h]
      cases run.answer <;> rfl
  have h2 : setCeos none vl vg blank = (false, blank) := rfl
  exact ⟨h1, h2, (C160_failure h1 qs R).1, (C160_failure h1 qs R).2, (C160_failure h2 qs R).1, (C160_failure h2 qs R).2⟩

example : (⟨[(8, 1)], none⟩ : Run).answer = none ∨ (⟨[(8, 1)], none⟩ : Run).called = [] := .inl rfl

/-- **C160 fails.** Without a volume the first call raises whatever was asked for, and a second call for temperature or pressure returns it. -/
theorem C160_second_fails (T P : ℝ) :
    (calls (setCeos (some (T, P)) (fun _ => none) fun _ => none) [.T, .T] blank).1 = [none, some T]
      ∧ (calls (setCeos (some (T, P)) (fun _ => none) fun _ => none) [.P, .P] blank).1 = [none, some P]
      ∧ (setCeos (some (T, P)) (fun _ => none) (fun _ => none) blank).1 = false := ⟨rfl, rfl, rfl⟩

/-- **C160 fails.** `CEOSPhase` stores temperature and pressure before it has a volume: if there is none, the volume raises and the others do not. -/
theorem C160_half_fails (T P : ℝ) :
    (calls (setCeos (some (T, P)) (fun _ => none) fun _ => none) [.V, .T, .P, .V] blank).1 = [none, some T, some P, none] := rfl

/-! ## Bulks -/

/-- `Bulk.Tmc`, `Pmc`, `Vmc`, `Zmc` (1626-1672): means over phases. -/
def mean {n : ℕ} (betas x : Fin n → ℝ) : ℝ := ∑ i, betas i * x i

/-- **C160.** The properties of a bulk lie between those of its phases; phases of the same critical point give that point and its compressibility. -/
theorem C160_bulk {n : ℕ} (betas : Fin n → ℝ) (hb : ∀ i, 0 ≤ betas i) (hs : ∑ i, betas i = 1) :
    (∀ (x : Fin n → ℝ) (lo hi : ℝ), (∀ i, lo ≤ x i ∧ x i ≤ hi) → lo ≤ mean betas x ∧ mean betas x ≤ hi)
      ∧ ∀ R T P V : ℝ, mean betas (fun _ => P * V / (R * T)) = mean betas (fun _ => P) * mean betas (fun _ => V) / (R * mean betas fun _ => T) := by
  have w : ∀ c : ℝ, mean betas (fun _ => c) = c := fun c => by rw [mean, ← Finset.sum_mul, hs, one_mul]
  refine ⟨fun x lo hi h => ⟨?_, ?_⟩, fun R T P V => by simp only [w]⟩
  · rw [← w lo]
    exact Finset.sum_le_sum fun i _ => mul_le_mul_of_nonneg_left (h i).1 (hb i)
  · rw [← w hi]
    exact Finset.sum_le_sum fun i _ => mul_le_mul_of_nonneg_left (h i).2 (hb i)

example : (∀ i, (0 : ℝ) ≤ (![1 / 4, 3 / 4] : Fin 2 → ℝ) i) ∧ ∑ i, (![1 / 4, 3 / 4] : Fin 2 → ℝ) i = 1 := by
  constructor
  · intro i; fin_cases i <;> norm_num
  · norm_num [Fin.sum_univ_two]

/-- **C160 fails.** The compressibility of a bulk of two phases is not the one of its temperature, pressure and volume. -/
theorem C160_bulk_fails : ∃ (betas T P V : Fin 2 → ℝ), (∀ i, 0 < betas i) ∧ ∑ i, betas i = 1 ∧ (∀ i, P i * V i / (1 * T i) = 3 / 8)
    ∧ mean betas (fun i => P i * V i / (1 * T i)) ≠ mean betas P * mean betas V / (1 * mean betas T) := by
  refine ⟨![1 / 2, 1 / 2], ![8, 8], ![1, 2], ![3, 3 / 2], ?_, ?_, ?_, ?_⟩
  · intro i; fin_cases i <;> norm_num
  · norm_num [Fin.sum_univ_two]
  · intro i; fin_cases i <;> norm_num
  · norm_num [mean, Fin.sum_univ_two]

end Verif.CriticalPoint
