import Verif.Eos.Discriminant
import Mathlib.Tactic

/-!
# Searches for transitions of a cubic equation of state

C161: the temperatures and pressures reported as transitions between one and three volumes are zeros of the discriminant at that temperature and
pressure, or an exception is raised; a guess given by the user is used.

* `thermo/eos.py`: `T_discriminant_zero_l` (4431-4450), `T_discriminant_zero_g` (4486-4505), `_P_discriminant_zero` (4251-4370, without the
  correlation itself), `P_PIP_transition` (4551-4586), `_V_g_extrapolated` (4590-4615);
* `thermo/phases/ceos.py`: `T_transitions` (403-407).

`secant`, `newton` and `bisect` are partial functions from guesses and bounds; an exception is `none`. Their contract, where it is needed, is that an answer
is an exact zero of the function given to them. The guesses of Wilson and of the Chebyshev polynomial are numbers given as parameters; whether the class has
coefficients of that polynomial is a flag.
-/

namespace Verif.Transitions

open Verif.Discriminant

/-! ## The loop over guesses -/

/-- `for g in guesses: try: x = attempt(g); assert ok(x); break; except: pass` (4440-4448, 4495-4503, 4307-4335). The variable `x` keeps an answer that
was refused. The last argument is its content before; `none` at the end is an unbound variable. -/
def search (attempt : ℝ → Option ℝ) (ok : ℝ → Bool) : List ℝ → Option ℝ → Option ℝ
  | [], cur => cur
  | g :: gs, cur =>
    match attempt g with
    | none => search attempt ok gs cur
    | some x => if ok x then some x else search attempt ok gs (some x)

/-- The guess leads to an answer that is accepted. -/
def Good (attempt : ℝ → Option ℝ) (ok : ℝ → Bool) (g x : ℝ) : Prop := attempt g = some x ∧ ok x = true

/-- **C161.** The first guess that leads to an accepted answer decides. -/
theorem C161_first {attempt : ℝ → Option ℝ} {ok : ℝ → Bool} (before after : List ℝ) (g x : ℝ) (cur : Option ℝ) (h : Good attempt ok g x)
    (hb : ∀ g' ∈ before, ∀ y, ¬ Good attempt ok g' y) : search attempt ok (before ++ g :: after) cur = some x := by
  induction before generalizing cur with
  | nil => simp [search, h.1, h.2]
  | cons a l ih =>
    have hl : ∀ g' ∈ l, ∀ y, ¬ Good attempt ok g' y := fun g' hg => hb g' (List.mem_cons_of_mem _ hg)
    cases ha : attempt a with
    | none => simp [search, ha, ih cur hl]
    | some y =>
      have : ok y = false := by
        cases hy : ok y with
        | false => rfl
        | true => exact absurd ⟨ha, hy⟩ (hb a List.mem_cons_self y)
      simp [search, ha, this, ih (some y) hl]

/-- An answer is an answer of a guess. -/
theorem search_mem {attempt : ℝ → Option ℝ} {ok : ℝ → Bool} {gs : List ℝ} {cur : Option ℝ} {x : ℝ} (h : search attempt ok gs cur = some x) :
    cur = some x ∨ ∃ g ∈ gs, attempt g = some x := by
  induction gs generalizing cur with
  | nil => exact Or.inl h
  | cons a l ih =>
    simp only [search] at h
    cases ha : attempt a with
    | none =>
      rw [ha] at h
      rcases ih h with h | ⟨g, hg, h⟩
      · exact Or.inl h
      · exact Or.inr ⟨g, List.mem_cons_of_mem _ hg, h⟩
    | some y =>
      rw [ha] at h
      dsimp only at h
      by_cases hy : ok y = true
      · rw [if_pos hy] at h
        exact Or.inr ⟨a, List.mem_cons_self, by rw [ha, h]⟩
      · rw [if_neg hy] at h
        rcases ih h with h | ⟨g, hg, h⟩
        · exact Or.inr ⟨a, List.mem_cons_self, by rw [ha, h]⟩
        · exact Or.inr ⟨g, List.mem_cons_of_mem _ hg, h⟩

/-- **C161.** It raises exactly if no guess leads to any answer. -/
theorem C161_raises (attempt : ℝ → Option ℝ) (ok : ℝ → Bool) (gs : List ℝ) : search attempt ok gs none = none ↔ ∀ g ∈ gs, attempt g = none := by
  have keep : ∀ (gs : List ℝ) (y : ℝ), search attempt ok gs (some y) ≠ none := by
    intro gs
    induction gs with
    | nil => intro y; simp [search]
    | cons a l ih =>
      intro y
      cases ha : attempt a with
      | none => simpa [search, ha] using ih y
      | some z =>
        by_cases hz : ok z = true
        · simp [search, ha, hz]
        · simpa [search, ha, hz] using ih z
  induction gs with
  | nil => simp [search]
  | cons a l ih =>
    cases ha : attempt a with
    | none => simp [search, ha, ih]
    | some z =>
      by_cases hz : ok z = true
      · simp [search, ha, hz]
      · simp [search, ha, hz, keep]

/-- **C161 fails.** If no answer is accepted, the last one refused is returned. -/
theorem C161_refused_fails {attempt : ℝ → Option ℝ} {ok : ℝ → Bool} (before after : List ℝ) (g x : ℝ) (cur : Option ℝ) (h : attempt g = some x)
    (hx : ok x = false) (hb : ∀ g' ∈ before, ∀ y, ¬ Good attempt ok g' y) (ha : ∀ g' ∈ after, attempt g' = none) :
    search attempt ok (before ++ g :: after) cur = some x := by
  have tail : ∀ (l : List ℝ) (c : Option ℝ), (∀ g' ∈ l, attempt g' = none) → search attempt ok l c = c := by
    intro l
    induction l with
    | nil => intro c _; rfl
    | cons a l ih =>
      intro c hl
      simp [search, hl a List.mem_cons_self, ih c fun g' hg => hl g' (List.mem_cons_of_mem _ hg)]
  induction before generalizing cur with
  | nil => simp [search, h, hx, tail after _ ha]
  | cons a l ih =>
    have hl : ∀ g' ∈ l, ∀ y, ¬ Good attempt ok g' y := fun g' hg => hb g' (List.mem_cons_of_mem _ hg)
    cases hq : attempt a with
    | none => simp [search, hq, ih cur hl]
    | some y =>
      have : ok y = false := by
        cases hy : ok y with
        | false => rfl
        | true => exact absurd ⟨hq, hy⟩ (hb a List.mem_cons_self y)
      simp [search, hq, this, ih (some y) hl]

/-! ## Temperatures -/

open Classical in
/-- `assert T_disc > 0 and not T_disc == 1` (4445, 4500), also for pressures (4330). -/
noncomputable def okT (x : ℝ) : Bool := decide (0 < x ∧ x ≠ 1)

/-- The guesses of `T_discriminant_zero_l` (4433-4435). -/
def guessesL (user : Option ℝ) : List ℝ := [100, 150, 200, 250, 300, 350, 400, 450] ++ user.toList

/-- The guesses of `T_discriminant_zero_g` (4488-4490). -/
def guessesG (user : Option ℝ) : List ℝ := [700, 600, 500, 400, 300, 200] ++ user.toList

/-- `T_discriminant_zero_l`; `secant f g` is the iteration for `f` from `g`. -/
noncomputable def zeroTL (secant : (ℝ → ℝ) → ℝ → Option ℝ) (f : ℝ → ℝ) (user : Option ℝ) : Option ℝ := search (secant f) okT (guessesL user) none

@[inherit_doc zeroTL] noncomputable def zeroTG (secant : (ℝ → ℝ) → ℝ → Option ℝ) (f : ℝ → ℝ) (user : Option ℝ) : Option ℝ :=
  search (secant f) okT (guessesG user) none

/-- `T_transitions` (403-407). -/
noncomputable def transitionsT (secant : (ℝ → ℝ) → ℝ → Option ℝ) (f : ℝ → ℝ) : Option ℝ :=
  match zeroTL secant f none with
  | some x => some x
  | none => zeroTG secant f none

/-- The function solved: `discriminant(T=T)` of an object at `selfT`, `selfP`. -/
noncomputable def solved (R selfT selfP b delta epsilon : ℝ) (aalpha : ℝ → ℝ) (t : ℝ) : ℝ :=
  discriminantCall R selfT selfP b delta epsilon (aalpha selfT) aalpha (some t) none

/-- The discriminant at a temperature and pressure. -/
noncomputable def actual (R P b delta epsilon : ℝ) (aalpha : ℝ → ℝ) (t : ℝ) : ℝ := discriminant R t P b delta epsilon (aalpha t)

/-- The contract of an iteration. -/
def Solves (solver : (ℝ → ℝ) → ℝ → Option ℝ) : Prop := ∀ f g x, solver f g = some x → f x = 0

/-- **C161.** An answer is a zero of the function given to the iteration. -/
theorem C161_temperature {secant : (ℝ → ℝ) → ℝ → Option ℝ} (hs : Solves secant) {f : ℝ → ℝ} {user : Option ℝ} {x : ℝ}
    (h : zeroTL secant f user = some x ∨ zeroTG secant f user = some x) : f x = 0 := by
  rcases h with h | h <;> rcases search_mem h with h | ⟨g, _, h⟩
  · cases h
  · exact hs _ _ _ h
  · cases h
  · exact hs _ _ _ h

/-- **C161, partial.** At the temperature of the object the function is the discriminant, so that an answer equal to that temperature is a transition. Missing:
all other answers. -/
theorem C161_temperature_partial {secant : (ℝ → ℝ) → ℝ → Option ℝ} (hs : Solves secant) {R T P b delta epsilon : ℝ} {aalpha : ℝ → ℝ} {user : Option ℝ}
    (h : zeroTL secant (solved R T P b delta epsilon aalpha) user = some T) : actual R P b delta epsilon aalpha T = 0 :=
  C161_temperature (f := solved R T P b delta epsilon aalpha) hs (Or.inl h)

/-- An iteration that knows the zeros -/
noncomputable def oracle (t : ℝ) : (ℝ → ℝ) → ℝ → Option ℝ := open Classical in fun f _ => if f t = 0 then some t else none

theorem oracle_solves (t : ℝ) : Solves (oracle t) := by
  intro f g x h
  unfold oracle at h
  split_ifs at h with hf
  rw [← Option.some.inj h]
  exact hf

theorem oracle_finds (t : ℝ) (h0 : 0 < t) (h1 : t ≠ 1) (f : ℝ → ℝ) (hf : f t = 0) (user : Option ℝ) : zeroTL (oracle t) f user = some t :=
  C161_first [] _ 100 t none ⟨by simp [oracle, hf], by simp [okT, h0, h1]⟩ (by simp)

example : zeroTL (oracle 8) (solved 1 8 1 1 0 0 fun _ => 27) none = some 8 :=
  oracle_finds 8 (by norm_num) (by norm_num) _ (by norm_num [solved, discriminantCall, discriminant]) _

/-- **C161 fails.** An exact zero of the function solved is not a transition, as the function keeps the temperature of the object beside the attraction. -/
theorem C161_temperature_fails : ∃ (secant : (ℝ → ℝ) → ℝ → Option ℝ) (aalpha : ℝ → ℝ) (x : ℝ), Solves secant
    ∧ zeroTL secant (solved 1 8 1 1 0 0 aalpha) none = some x ∧ 0 < aalpha x ∧ actual 1 1 1 0 0 aalpha x ≠ 0 := by
  refine ⟨oracle 16, fun t => 54 - 27 * t / 16, 16, oracle_solves 16, oracle_finds 16 (by norm_num) (by norm_num) _ ?_ _, ?_, ?_⟩
  · norm_num [solved, discriminantCall, discriminant]
  · norm_num
  · norm_num [actual, discriminant]

/-- **C161 fails.** For an attraction that does not depend on temperature, as of van der Waals, the function solved is constant: no transition is found from an
object that is not at one, although there is one. -/
theorem C161_constant_fails {secant : (ℝ → ℝ) → ℝ → Option ℝ} (hs : Solves secant) (user : Option ℝ) :
    (∀ R T P b delta epsilon a t t' : ℝ, solved R T P b delta epsilon (fun _ => a) t = solved R T P b delta epsilon (fun _ => a) t')
      ∧ zeroTL secant (solved 1 7 1 1 0 0 fun _ => 27) user = none ∧ zeroTG secant (solved 1 7 1 1 0 0 fun _ => 27) user = none
      ∧ actual 1 1 1 0 0 (fun _ => 27) 8 = 0 := by
  have hne : ∀ x, solved 1 7 1 1 0 0 (fun _ => 27) x ≠ 0 := fun x => by norm_num [solved, discriminantCall, discriminant]
  refine ⟨fun _ _ _ _ _ _ _ _ _ => rfl, ?_, ?_, by norm_num [actual, discriminant]⟩
  · cases h : zeroTL secant (solved 1 7 1 1 0 0 fun _ => 27) user with
    | none => rfl
    | some x => exact absurd (C161_temperature hs (Or.inl h)) (hne x)
  · cases h : zeroTG secant (solved 1 7 1 1 0 0 fun _ => 27) user with
    | none => rfl
    | some x => exact absurd (C161_temperature hs (Or.inr h)) (hne x)

/-- **C161 fails.** The guess of the user is tried last: if any built-in guess leads to an accepted answer, it has no influence. -/
theorem C161_guess_fails {secant : (ℝ → ℝ) → ℝ → Option ℝ} {f : ℝ → ℝ} {g x : ℝ} (hg : g ∈ guessesL none) (h : Good (secant f) okT g x) (u : ℝ) :
    zeroTL secant f (some u) = zeroTL secant f none ∧ zeroTL secant f none ≠ none := by
  have ex : ∀ (l : List ℝ) (t : List ℝ) (c : Option ℝ), (∃ g ∈ l, ∃ x, Good (secant f) okT g x) →
      search (secant f) okT (l ++ t) c = search (secant f) okT l c ∧ search (secant f) okT l c ≠ none := by
    intro l t
    induction l with
    | nil => rintro c ⟨g, hg, _⟩; cases hg
    | cons a l ih =>
      rintro c ⟨g, hg, x, hx⟩
      have hl : g ≠ a → ∃ g ∈ l, ∃ x, Good (secant f) okT g x := fun hne => ⟨g, (List.mem_cons.mp hg).resolve_left hne, x, hx⟩
      cases ha : secant f a with
      | none =>
        have hne : g ≠ a := by
          rintro rfl
          rw [hx.1] at ha
          cases ha
        simpa [search, ha] using ih c (hl hne)
      | some y =>
        by_cases hy : okT y = true
        · simp [search, ha, hy]
        · have hne : g ≠ a := by
            rintro rfl
            rw [hx.1] at ha
            exact hy (Option.some.inj ha ▸ hx.2)
          simpa [search, ha, hy] using ih (some y) (hl hne)
  have := ex (guessesL none) [u] none ⟨g, hg, x, h⟩
  refine ⟨?_, this.2⟩
  rw [zeroTL, zeroTL, ← this.1]
  simp [guessesL]

example : (100 : ℝ) ∈ guessesL none ∧ Good (oracle 8 (solved 1 8 1 1 0 0 fun _ => 27)) okT 100 8 := by
  refine ⟨by simp [guessesL], ?_, by simp [okT]⟩
  have : solved 1 8 1 1 0 0 (fun _ => 27) 8 = 0 := by norm_num [solved, discriminantCall, discriminant]
  simp [oracle, this]

/-- **C161 fails.** The bound 1 K, when it is the last answer, is reported as a transition, and the search from high temperatures, which would find
one, is not made. -/
theorem C161_bound_fails : ∃ (secant : (ℝ → ℝ) → ℝ → Option ℝ) (f : ℝ → ℝ), transitionsT secant f = some 1 ∧ okT 1 = false
    ∧ zeroTG secant f none = some 640 ∧ okT 640 = true := by
  classical
  refine ⟨fun _ g => if g = 700 then some 640 else if g = 450 then some 1 else none, fun _ => 0, ?_, by simp [okT], ?_, ?_⟩
  · norm_num [transitionsT, zeroTL, guessesL, search, okT]
  · norm_num [zeroTG, guessesG, search, okT]
  · norm_num [okT]

/-! ## Pressures -/

/-- What `_P_discriminant_zero` knows. -/
structure Obj where
  /-- `low` of the call: `P_discriminant_zero_l`. -/
  low : Bool
  (T Tc : ℝ)
  /-- The class has Chebyshev coefficients for this side; if not, `Tr` is never assigned (4281-4293). -/
  cheb : Bool

open Classical in
/-- The lower bound (4321-4327); the outer `none` is the unbound `Tr`. -/
noncomputable def bound (o : Obj) : Option (Option ℝ) :=
  if o.low = false ∧ o.T < o.Tc then some (some 100000000)
  else if o.cheb then (if 0.3 < o.T / o.Tc then some (some 1) else some none)
  else none

/-- One attempt (4308-4330). -/
noncomputable def attemptP (newton : Option ℝ → ℝ → Option ℝ) (o : Obj) (g : ℝ) : Option ℝ :=
  match bound o with
  | none => none
  | some lb => newton lb g

open Classical in
/-- `P_disc > low_bound` (4331-4332, 4337-4338); comparing with `None` raises. -/
noncomputable def above (o : Obj) (x : ℝ) : Bool :=
  match bound o with
  | some (some lb) => decide (lb < x)
  | _ => false

/-- The assertions within the loop (4330-4332). -/
noncomputable def okP (o : Obj) (x : ℝ) : Bool := okT x && (o.low || above o x)

/-- The guesses (4257-4269, 4303): first the polynomial, if used, then that of Wilson, the fixed ones, and the critical pressure. -/
noncomputable def guessesP (low : Bool) (poly wilson Pc : Option ℝ) : List ℝ :=
  poly.toList ++ (if low then wilson.toList ++ [100000, 1000000, 10000000, 100000000, 1000000000, 1 / 2, 1 / 10 ^ 4, 1 / 10 ^ 8, 1 / 10 ^ 12,
      1 / 10 ^ 16, 1 / 10 ^ 20] ++ (Pc.map (· * 0.99999999)).toList
    else [1000000000, 10000000000, 10000000000, 50000000000, 20000000000, 5000000000, 500000000, 100000000])

/-- **C161.** On the side of low pressures the search starts at every power of ten from `1e5` to `1e9` and at every fourth one from `1e-4` down to `1e-20`, after the
polynomial and the guess of Wilson and before the critical pressure; on the other side all fixed guesses are at least `1e8` and at most `5e10`. -/
theorem C161_guesses (poly wilson Pc : Option ℝ) :
    (∀ n : ℕ, 5 ≤ n → n ≤ 9 → (10 : ℝ) ^ n ∈ guessesP true poly wilson Pc) ∧ (∀ n : ℕ, 1 ≤ n → n ≤ 5 → (1 : ℝ) / 10 ^ (4 * n) ∈ guessesP true poly wilson Pc)
      ∧ (∀ p, poly = some p → ∀ low, (guessesP low poly wilson Pc).head? = some p)
      ∧ (∀ w, poly = none → wilson = some w → (guessesP true poly wilson Pc).head? = some w)
      ∧ (∀ x, Pc = some x → (guessesP true poly wilson Pc).getLast? = some (x * 0.99999999))
      ∧ ∀ g ∈ guessesP false none wilson Pc, (10 : ℝ) ^ 8 ≤ g ∧ g ≤ 5 * 10 ^ 10 := by
  refine ⟨fun n h1 h2 => ?_, fun n h1 h2 => ?_, ?_, ?_, ?_, ?_⟩
  · interval_cases n <;> simp only [guessesP, if_true, List.mem_append, List.mem_cons] <;> norm_num
  · interval_cases n <;> simp only [guessesP, if_true, List.mem_append, List.mem_cons] <;> norm_num
  · rintro p rfl low
    simp [guessesP]
  · rintro w rfl rfl
    simp [guessesP]
  · rintro x rfl
    simp [guessesP]
  · intro g hg
    simp [guessesP] at hg
    rcases hg with rfl | rfl | rfl | rfl | rfl | rfl | rfl <;> norm_num

/-- **C161 fails.** One guess of the high side is listed twice, so one of the attempts is a repetition. -/
theorem C161_repeated_fails (wilson Pc : Option ℝ) : ¬ (guessesP false none wilson Pc).Nodup := by
  simp [guessesP]

/-- `_P_discriminant_zero` (4306-4370). -/
noncomputable def zeroP (newton : Option ℝ → ℝ → Option ℝ) (o : Obj) (guesses : List ℝ) : Option ℝ :=
  match search (attemptP newton o) (okP o) guesses none with
  | none => none
  | some x => if o.low || above o x then some x else none

/-- **C161.** The side of high pressures: an answer is a zero of the discriminant at this temperature and pressure, above 1e8 Pa below the critical
temperature and above 1 Pa otherwise. -/
theorem C161_high {newton : Option ℝ → ℝ → Option ℝ} {o : Obj} {R b delta epsilon a : ℝ} (hRT : R * o.T ≠ 0) (ho : o.low = false)
    (hn : ∀ lb g x, newton lb g = some x → zeroErr R o.T b delta epsilon a x = 0) {gs : List ℝ} {x : ℝ} (h : zeroP newton o gs = some x) :
    discriminant R o.T x b delta epsilon a = 0 ∧ (if o.T < o.Tc then 100000000 else 1) < x := by
  unfold zeroP at h
  cases hs : search (attemptP newton o) (okP o) gs none with
  | none => rw [hs] at h; cases h
  | some y =>
    rw [hs, ho] at h
    dsimp only at h
    rw [Bool.false_or] at h
    by_cases ha : above o y = true
    · rw [if_pos ha] at h
      have e := Option.some.inj h
      subst e
      constructor
      · rw [← (C37_zero_newton hRT).1]
        rcases search_mem hs with hs | ⟨g, _, hs⟩
        · cases hs
        · unfold attemptP at hs
          cases hb : bound o with
          | none => rw [hb] at hs; cases hs
          | some lb => rw [hb] at hs; exact hn _ _ _ hs
      · by_cases hT : o.T < o.Tc
        · rw [if_pos hT]
          simpa [above, bound, ho, hT] using ha
        · rw [if_neg hT]
          unfold above bound at ha
          rw [if_neg (fun hh => hT hh.2)] at ha
          cases hc : o.cheb with
          | false => simp [hc] at ha
          | true =>
            by_cases h3 : 0.3 < o.T / o.Tc
            · simpa [hc, h3] using ha
            · simp [hc, h3] at ha
    · rw [if_neg ha] at h
      cases h

example : zeroErr 1 1600000000 1 0 0 5400000000 200000000 = 0
    ∧ zeroP (fun _ _ => some 200000000) ⟨false, 1600000000, 2000000000, false⟩ (guessesP false none none none) = some 200000000 := by
  constructor
  · norm_num [zeroErr]
  · norm_num [zeroP, guessesP, search, attemptP, bound, okP, okT, above]

/-- **C161.** The side of low pressures: an accepted answer is a positive zero of the discriminant at this temperature. -/
theorem C161_low {newton : Option ℝ → ℝ → Option ℝ} {o : Obj} {R b delta epsilon a : ℝ} (hRT : R * o.T ≠ 0) (ho : o.low = true)
    (hn : ∀ lb g x, newton lb g = some x → zeroErr R o.T b delta epsilon a x = 0) {before after : List ℝ} {g x : ℝ}
    (hg : Good (attemptP newton o) (okP o) g x) (hb : ∀ g' ∈ before, ∀ y, ¬ Good (attemptP newton o) (okP o) g' y) :
    zeroP newton o (before ++ g :: after) = some x ∧ 0 < x ∧ discriminant R o.T x b delta epsilon a = 0 := by
  refine ⟨?_, ?_, ?_⟩
  · simp [zeroP, C161_first before after g x none hg hb, ho]
  · have := hg.2
    simp only [okP, okT, ho, Bool.true_or, Bool.and_true, decide_eq_true_eq] at this
    exact this.1
  · rw [← (C37_zero_newton hRT).1]
    have hs := hg.1
    unfold attemptP at hs
    cases hb : bound o with
    | none => rw [hb] at hs; cases hs
    | some lb => rw [hb] at hs; exact hn _ _ _ hs

example : zeroErr 1 16 1 0 0 54 2 = 0 ∧ Good (attemptP (fun _ _ => some 2) ⟨true, 16, 18, true⟩) (okP ⟨true, 16, 18, true⟩) 1 2 := by
  refine ⟨by norm_num [zeroErr], ?_, ?_⟩
  · norm_num [attemptP, bound]
  · norm_num [okP, okT]

/-- **C161 fails.** At no pressure the residual is zero for every equation of state; the side of low pressures returns that answer, refused in the loop,
if it is the last. -/
theorem C161_nothing_fails (R T Tc b delta epsilon a : ℝ) (poly wilson Pc : Option ℝ) : ∃ newton : Option ℝ → ℝ → Option ℝ,
    (∀ lb g x, newton lb g = some x → zeroErr R T b delta epsilon a x = 0)
      ∧ zeroP newton ⟨true, T, Tc, true⟩ (guessesP true poly wilson Pc) = some 0 ∧ okP ⟨true, T, Tc, true⟩ 0 = false := by
  have hz : zeroErr R T b delta epsilon a 0 = 0 := by simp [zeroErr]
  refine ⟨fun _ _ => some 0, fun _ _ x h => by rw [← Option.some.inj h]; exact hz, ?_, by simp [okP, okT]⟩
  have ha : ∀ g, attemptP (fun _ _ => some 0) ⟨true, T, Tc, true⟩ g = some 0 := by
    intro g
    unfold attemptP bound
    by_cases h : 0.3 < T / Tc <;> simp [h]
  have hs : ∀ l : List ℝ, search (attemptP (fun _ _ => some 0) ⟨true, T, Tc, true⟩) (okP ⟨true, T, Tc, true⟩) l (some 0) = some 0 := by
    intro l
    induction l with
    | nil => rfl
    | cons g l ih => simp [search, ha, okP, okT, ih]
  have hl : ∀ l : List ℝ, l ≠ [] → search (attemptP (fun _ _ => some 0) ⟨true, T, Tc, true⟩) (okP ⟨true, T, Tc, true⟩) l none = some 0 := by
    intro l hl
    cases l with
    | nil => exact absurd rfl hl
    | cons g l => simp [search, ha, okP, okT, hs]
  simp [zeroP, hl (guessesP true poly wilson Pc) (by simp [guessesP])]

/-- **C161 fails.** A class without Chebyshev coefficients has no lower transition whatever the iteration, and no upper one at and above the critical
temperature: `Tr` is not assigned. -/
theorem C161_unassigned_fails (newton : Option ℝ → ℝ → Option ℝ) (T Tc : ℝ) (gs : List ℝ) :
    zeroP newton ⟨true, T, Tc, false⟩ gs = none ∧ (Tc ≤ T → zeroP newton ⟨false, T, Tc, false⟩ gs = none) := by
  have key : ∀ o : Obj, bound o = none → zeroP newton o gs = none := by
    intro o hb
    have : search (attemptP newton o) (okP o) gs none = none := (C161_raises _ _ _).mpr fun g _ => by simp [attemptP, hb]
    simp [zeroP, this]
  exact ⟨key _ (by simp [bound]), fun h => key _ (by simp [bound, not_lt.mpr h])⟩

/-! ## The phase identification parameter -/

/-- The critical temperature: that of the object, or the mean of a mixture (4551-4554). -/
def critical (Tc : Option ℝ) (pseudo : ℝ) : ℝ := Tc.getD pseudo

/-- The function solved (4558-4567): the liquid one if there is a liquid volume. -/
def pipErr (pipL pipG : ℝ → Option ℝ) (P : ℝ) : Option ℝ :=
  match pipL P with
  | some x => some (x - 1)
  | none => (pipG P).map (· - 1)

open Classical in
/-- `P_PIP_transition` (4551-4586); `bisect` is the answer between 1e-3 and 1e11 Pa. -/
noncomputable def pip (bisect : (ℝ → Option ℝ) → ℝ → ℝ → Option ℝ) (Tc : Option ℝ) (pseudo : ℝ) (err : ℝ → Option ℝ) (T limit : ℝ) : Option ℝ :=
  if T < critical Tc pseudo then some limit
  else
    match bisect err (1 / 1000) 100000000000 with
    | some P => some P
    | none =>
      match err limit with
      | none => none
      | some e => if |e| < 1 / 10 ^ 9 then some limit else none

/-- **C161.** At and above the critical temperature, an answer makes the parameter one, exactly between the bounds or within 1e-9 at the limit given. -/
theorem C161_parameter {bisect : (ℝ → Option ℝ) → ℝ → ℝ → Option ℝ} (hb : ∀ f a b x, bisect f a b = some x → a ≤ x ∧ x ≤ b ∧ f x = some 0) {Tc : Option ℝ}
    {pseudo T limit P : ℝ} {err : ℝ → Option ℝ} (hT : Tc.getD pseudo ≤ T) (h : pip bisect Tc pseudo err T limit = some P) :
    (err P = some 0 ∧ 1 / 1000 ≤ P ∧ P ≤ 100000000000) ∨ (P = limit ∧ ∃ e, err limit = some e ∧ |e| < 1 / 10 ^ 9) := by
  unfold pip critical at h
  rw [if_neg (not_lt.mpr hT)] at h
  cases hq : bisect err (1 / 1000) 100000000000 with
  | some x =>
    rw [hq] at h
    rw [← Option.some.inj h]
    obtain ⟨h1, h2, h3⟩ := hb _ _ _ _ hq
    exact Or.inl ⟨h3, h1, h2⟩
  | none =>
    rw [hq] at h
    dsimp only at h
    cases he : err limit with
    | none => rw [he] at h; cases h
    | some e =>
      rw [he] at h
      dsimp only at h
      by_cases hs : |e| < 1 / 10 ^ 9
      · rw [if_pos hs] at h
        exact Or.inr ⟨(Option.some.inj h).symm, e, rfl, hs⟩
      · rw [if_neg hs] at h
        cases h

example : pip (fun _ _ _ => none) none 300 (pipErr (fun _ => none) fun _ => some 1) 400 0 = some 0 := by
  norm_num [pip, critical, pipErr]

/-- **C161.** With a liquid volume the liquid parameter is used, otherwise that of the gas. -/
theorem C161_volume (pipL pipG : ℝ → Option ℝ) (P : ℝ) : pipErr pipL pipG P = some 0 ↔ pipL P = some 1 ∨ (pipL P = none ∧ pipG P = some 1) := by
  unfold pipErr
  cases pipL P with
  | some x => simp [sub_eq_zero]
  | none => cases pipG P <;> simp [sub_eq_zero]

/-- **C161 fails.** Below the critical temperature the limit given is returned for every equation of state and every limit; the parameter is not computed. -/
theorem C161_subcritical_fails (bisect : (ℝ → Option ℝ) → ℝ → ℝ → Option ℝ) (Tc : Option ℝ) (pseudo T limit : ℝ) (err : ℝ → Option ℝ)
    (h : T < Tc.getD pseudo) : pip bisect Tc pseudo err T limit = some limit := by
  unfold pip critical
  rw [if_pos h]

example : (100 : ℝ) < (some 507.6 : Option ℝ).getD 0 := by norm_num

/-! ## Extrapolated volume of a gas -/

/-- `_V_g_extrapolated` (4590-4615) from the density and its slope at the pressure used and the density `r` of the pseudo-critical point; `at'` is the pressure
at which the series is evaluated, which is `eos_low.P` in both places (4614). -/
noncomputable def extrapolated (low r Plow dPdrho at' : ℝ) : ℝ :=
  let rho0 := (low + 1.4 * r) * 0.5
  let rho1 := Plow * ((low - 1.4 * r) + Plow / dPdrho)
  let rho2 := -Plow * Plow * ((low - 1.4 * r) * 0.5 + Plow / dPdrho)
  1 / (rho0 + rho1 / at' + rho2 / (at' * at'))

/-- **C161 fails.** The series is evaluated at the pressure from which it starts: the volume is that of the gas there, at whatever pressure the object is. -/
theorem C161_extrapolated_fails {Plow : ℝ} (hP : Plow ≠ 0) (low r dPdrho : ℝ) : extrapolated low r Plow dPdrho Plow = 1 / low := by
  unfold extrapolated
  dsimp only
  congr 1
  generalize Plow / dPdrho = k
  field_simp
  ring

/-- **C161.** The series itself continues density and slope of density at its start, whatever the pseudo-critical density. -/
theorem C161_series {Plow : ℝ} (hP : 0 < Plow) (low r dPdrho : ℝ) (hd : dPdrho ≠ 0) :
    1 / extrapolated low r Plow dPdrho Plow = low ∧ HasDerivAt (fun p => 1 / extrapolated low r Plow dPdrho p) (1 / dPdrho) Plow := by
  refine ⟨by rw [C161_extrapolated_fails hP.ne', one_div_one_div], ?_⟩
  simp only [extrapolated, one_div_one_div]
  have h1 : HasDerivAt (fun p : ℝ => p) 1 Plow := hasDerivAt_id Plow
  have h2 := (((hasDerivAt_const Plow ((low + 1.4 * r) * 0.5)).fun_add
    ((hasDerivAt_const Plow (Plow * ((low - 1.4 * r) + Plow / dPdrho))).fun_div h1 hP.ne')).fun_add
    ((hasDerivAt_const Plow (-Plow * Plow * ((low - 1.4 * r) * 0.5 + Plow / dPdrho))).fun_div (h1.fun_mul h1) (mul_ne_zero hP.ne' hP.ne')))
  refine h2.congr_deriv ?_
  have := hP.ne'
  field_simp
  ring

example : (0 : ℝ) < 100000 ∧ (2500 : ℝ) ≠ 0 ∧ extrapolated 40 6000 100000 2500 1000000 ≠ extrapolated 40 6000 100000 2500 100000 := by
  norm_num [extrapolated]

end Verif.Transitions
