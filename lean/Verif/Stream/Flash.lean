import Verif.Stream.Args
import Mathlib.Algebra.Field.Rat

/-!
# Model of the flash memo of `StreamArgs` (`/repo/thermo/stream.py` 1790-1882) and C04
-/

namespace Verif.Stream

/-- `StreamArgs.composition_specified` (stream.py 1448-1469): for fraction lists the entries must
all be known and the sum non-zero; for flow lists the entries must all be known. -/
def compositionSpecified (s : Args) : Bool :=
  let known (l : CList) : Bool := l.all Option.isSome
  let total (l : CList) : ℚ := (l.map (fun x => x.getD 0)).sum
  let frac (c : CV) : Bool := match s.cf c with
    | some l => known l && decide (total l ≠ 0)
    | none => false
  let flow (c : CV) : Bool := match s.cf c with
    | some l => known l
    | none => false
  frac .zs || frac .ws || frac .Vfls || frac .Vfgs || flow .ns || flow .ms || flow .Qls || flow .Qgs

/-- Arguments handed to `self.flasher.flash(...)` (stream.py 1872-1879). `hot_start` is left out:
it is a starting guess, not a specification. -/
structure FlashArgs where
  (T P VF H H_mass S S_mass U U_mass G G_mass A A_mass V rho rho_mass H_reactive : Option ℚ)
  zs : CList
  deriving DecidableEq

/-- The memo key `state_cache` (stream.py 1863-1865). -/
structure Key where
  (T P VF S_mass S H H_flash H_reactive_spec H_reactive U U_mass G G_mass A A_mass V rho rho_mass :
    Option ℚ)
  zs : CList
  deriving DecidableEq

/-- Parts of the object this module does not model: mole fractions derived from whatever
composition is specified (`zs_calc`, stream.py 753-802) and total mole flow (`n_calc`,
stream.py 1129-1143), as arbitrary functions of the specifications. Simplification: they are pure
(`n_calc` may itself trigger a flash when only `Q` is given). -/
structure Env where
  zsCalc : Args → Option CList
  nCalc : Args → Option ℚ

/-- Keys counted by `spec_count` (stream.py 1811-1845). -/
def flashSpecKeys : List SV :=
  [.T, .P, .V, .rho, .rho_mass, .H_mass, .H, .S_mass, .S, .U_mass, .U, .G_mass, .G, .A_mass, .A,
   .H_reactive, .VF]

/-- Specific value from a stream energy: `energy/n` when the mole flow is known
(stream.py 1848-1859); the outer `none` is a `ZeroDivisionError`. -/
def perMole (env : Env) (s : Args) (e : Option ℚ) : Option (Option ℚ) :=
  match e, env.nCalc s with
  | some e, some n => if n = 0 then none else some (some (e / n))
  | _, _ => some none

/-- The values resolved before the key is formed: `(H_flash, H_reactive, zs)`
(stream.py 1807-1862); `none` when an exception is raised (including `tuple(None)` at 1865). -/
def resolve (env : Env) (s : Args) : Option (Option ℚ × Option ℚ × CList) :=
  let few := countSome s.st flashSpecKeys < 2
  match (if few then perMole env s (s.st .energy) else some none),
        (if few then perMole env s (s.st .energy_reactive) else some none),
        env.zsCalc s with
  | some H, some Hr, some zs => some ((s.st .H).or H, (s.st .H_reactive).or Hr, zs)
  | _, _, _ => none

/-- `state_cache` (stream.py 1863-1865); `H_mass` is not in it. -/
def keyOf (s : Args) (r : Option ℚ × Option ℚ × CList) : Key :=
  { T := s.st .T, P := s.st .P, VF := s.st .VF, S_mass := s.st .S_mass, S := s.st .S,
    H := s.st .H, H_flash := r.1, H_reactive_spec := s.st .H_reactive, H_reactive := r.2.1,
    U := s.st .U, U_mass := s.st .U_mass, G := s.st .G, G_mass := s.st .G_mass,
    A := s.st .A, A_mass := s.st .A_mass, V := s.st .V, rho := s.st .rho,
    rho_mass := s.st .rho_mass, zs := r.2.2 }

/-- The call to the flasher (stream.py 1872-1879). -/
def flashArgs (s : Args) (r : Option ℚ × Option ℚ × CList) : FlashArgs :=
  { T := s.st .T, P := s.st .P, zs := r.2.2, H := r.1, H_mass := s.st .H_mass,
    S := s.st .S, S_mass := s.st .S_mass, U := s.st .U, U_mass := s.st .U_mass,
    G := s.st .G, G_mass := s.st .G_mass, A := s.st .A, A_mass := s.st .A_mass,
    V := s.st .V, rho := s.st .rho, rho_mass := s.st .rho_mass,
    H_reactive := r.2.1, VF := s.st .VF }

/-- Result of `flash_state`: nothing to flash, an exception, or a flash result. -/
inductive FlashOut (R : Type)
  | notSpecified
  | raised
  | ok (r : R)
  deriving DecidableEq

/-- A `StreamArgs` object with its flasher and its memo (`_state_cache`, `_flash`). -/
structure Obj (Fl R : Type) where
  args : Args
  flasher : Fl
  memo : Option (Key × R)

/-- `flash_state` (stream.py 1790-1882); `flash` is the flasher's method. -/
def flashState {Fl R : Type} (env : Env) (flash : Fl → FlashArgs → R) (o : Obj Fl R) :
    Obj Fl R × FlashOut R :=
  if compositionSpecified o.args && stateSpecified o.args then
    match resolve env o.args with
    | none => (o, .raised)
    | some r =>
      let k := keyOf o.args r
      let fresh := flash o.flasher (flashArgs o.args r)
      match o.memo with
      | some (k', m) => if k' = k then (o, .ok m) else ({ o with memo := some (k, fresh) }, .ok fresh)
      | none => ({ o with memo := some (k, fresh) }, .ok fresh)
  else (o, .notSpecified)

/-- Operations on the object: an edit, replacing the public `flasher` attribute, or a flash. -/
inductive ObjOp (Fl : Type)
  | edit (op : Op)
  | setFlasher (f : Fl)
  | flash

/-- One operation on the object; setters do not touch the memo. -/
def ostep {Fl R : Type} (env : Env) (flash : Fl → FlashArgs → R) (o : Obj Fl R) :
    ObjOp Fl → Obj Fl R
  | .edit op => { o with args := (step o.args op).state }
  | .setFlasher f => { o with flasher := f }
  | .flash => (flashState env flash o).1

/-- A history. -/
def orun {Fl R : Type} (env : Env) (flash : Fl → FlashArgs → R) (o : Obj Fl R) :
    List (ObjOp Fl) → Obj Fl R
  | [] => o
  | x :: xs => orun env flash (ostep env flash o x) xs

/-! ## Specification: flashing without any memo -/

/-- What a memo-free object would return. -/
def freshFlash {Fl R : Type} (env : Env) (flash : Fl → FlashArgs → R) (fl : Fl) (s : Args) :
    FlashOut R :=
  if compositionSpecified s && stateSpecified s then
    match resolve env s with
    | none => .raised
    | some r => .ok (flash fl (flashArgs s r))
  else .notSpecified

/-- Histories that keep the mass enthalpy specification at `h` and the flasher in place. -/
def Steady {Fl R : Type} (env : Env) (flash : Fl → FlashArgs → R) (h : Option ℚ) :
    Obj Fl R → List (ObjOp Fl) → Prop
  | o, [] => o.args.st .H_mass = h
  | o, x :: xs => o.args.st .H_mass = h ∧ (∀ f, x ≠ .setFlasher f) ∧
      Steady env flash h (ostep env flash o x) xs

/-- Flash arguments as a function of the key and the mass enthalpy. -/
def argsOfKey (k : Key) (h : Option ℚ) : FlashArgs :=
  { T := k.T, P := k.P, zs := k.zs, H := k.H_flash, H_mass := h, S := k.S, S_mass := k.S_mass,
    U := k.U, U_mass := k.U_mass, G := k.G, G_mass := k.G_mass, A := k.A, A_mass := k.A_mass,
    V := k.V, rho := k.rho, rho_mass := k.rho_mass, H_reactive := k.H_reactive, VF := k.VF }

theorem flashArgs_eq (s : Args) (r : Option ℚ × Option ℚ × CList) :
    flashArgs s r = argsOfKey (keyOf s r) (s.st .H_mass) := rfl

/-- Memo invariant. -/
def MemoOk {Fl R : Type} (flash : Fl → FlashArgs → R) (h : Option ℚ) (o : Obj Fl R) : Prop :=
  ∀ k m, o.memo = some (k, m) → m = flash o.flasher (argsOfKey k h)

theorem flashState_ok {Fl R : Type} (env : Env) (flash : Fl → FlashArgs → R) (h : Option ℚ)
    (o : Obj Fl R) (hm : MemoOk flash h o) (hh : o.args.st .H_mass = h) :
    (flashState env flash o).2 = freshFlash env flash o.flasher o.args ∧
    MemoOk flash h (flashState env flash o).1 := by
  unfold flashState freshFlash
  by_cases hc : (compositionSpecified o.args && stateSpecified o.args) = true
  · simp only [hc, if_true]
    cases hr : resolve env o.args with
    | none => exact ⟨rfl, hm⟩
    | some r =>
      have hfr : ∀ k' : Key, k' = keyOf o.args r →
          flash o.flasher (argsOfKey k' h) = flash o.flasher (flashArgs o.args r) := by
        intro k' hk; rw [flashArgs_eq, hh, hk]
      cases hmm : o.memo with
      | none =>
        refine ⟨rfl, ?_⟩
        intro k m hkm
        simp only [Option.some.injEq, Prod.mk.injEq] at hkm
        obtain ⟨rfl, rfl⟩ := hkm
        exact (hfr _ rfl).symm
      | some km =>
        obtain ⟨k', m'⟩ := km
        simp only
        split_ifs with hk
        · refine ⟨?_, hm⟩
          rw [hm k' m' hmm, hfr k' hk]
        · refine ⟨rfl, ?_⟩
          intro k m hkm
          simp only [Option.some.injEq, Prod.mk.injEq] at hkm
          obtain ⟨rfl, rfl⟩ := hkm
          exact (hfr _ rfl).symm
  · simp only [hc]
    exact ⟨rfl, hm⟩

/-- **C04 (partial).** Starting from an object that has not flashed yet, after every history of
edits and flashes during which the flasher stays in place and the mass-enthalpy specification keeps
one value (in particular: is never used), `flash_state` returns what a fresh flash of the current
specifications returns. Missing for the full claim: changes of `H_mass` and of the flasher, for
which it is false (`C04_stale_after_H_mass`, `C04_stale_after_flasher`). -/
theorem C04_flash_is_fresh_partial {Fl R : Type} (env : Env) (flash : Fl → FlashArgs → R)
    (h : Option ℚ) (o : Obj Fl R) (hm : o.memo = none) (xs : List (ObjOp Fl))
    (hs : Steady env flash h o xs) :
    (flashState env flash (orun env flash o xs)).2
      = freshFlash env flash o.flasher (orun env flash o xs).args := by
  have key : ∀ xs : List (ObjOp Fl), ∀ o : Obj Fl R, MemoOk flash h o →
      Steady env flash h o xs →
      (flashState env flash (orun env flash o xs)).2
        = freshFlash env flash o.flasher (orun env flash o xs).args := by
    intro xs
    induction xs with
    | nil => intro o hmo hso; exact (flashState_ok env flash h o hmo hso).1
    | cons x xs ih =>
      intro o hmo hso
      obtain ⟨hh, hnf, hso⟩ := hso
      cases x with
      | edit op => exact ih _ hmo hso
      | setFlasher f => exact absurd rfl (hnf f)
      | flash =>
        have h1 := (flashState_ok env flash h o hmo hh).2
        have h2 := ih (flashState env flash o).1 h1 hso
        have h3 : (flashState env flash o).1.flasher = o.flasher := by
          unfold flashState
          split_ifs
          · cases resolve env o.args with
            | none => rfl
            | some r => simp only; split <;> [split_ifs <;> rfl; rfl]
          · rfl
        rw [h3] at h2
        exact h2
  exact key xs o (by intro k m hk; simp [hm] at hk) hs

/-! ## Witnesses -/

/-- Mole fractions are exactly what was specified; no mole flow. -/
def simpleEnv : Env := ⟨fun s => s.cf .zs, fun _ => none⟩

/-- A flash that just reports what it was asked. -/
def echoFlash : Nat → FlashArgs → Nat × FlashArgs := fun f a => (f, a)

/-- No specification, flasher number 0, nothing flashed yet. -/
def freshObj : Obj Nat (Nat × FlashArgs) :=
  ⟨⟨fun _ => none, fun _ => none, fun _ => none, false⟩, 0, none⟩

/-- Non-vacuity: specify, flash, edit the temperature, flash again. -/
example : Steady simpleEnv echoFlash none freshObj
      [.edit (.setComp .zs (some [some 1])), .edit (.setState .T (some 300)),
       .edit (.setState .P (some 5)), .flash, .edit (.setState .T (some 310))]
    ∧ ((flashState simpleEnv echoFlash (orun simpleEnv echoFlash freshObj
      [.edit (.setComp .zs (some [some 1])), .edit (.setState .T (some 300)),
       .edit (.setState .P (some 5)), .flash, .edit (.setState .T (some 310))])).2
        ≠ FlashOut.notSpecified) := by
  constructor
  · refine ⟨by decide +kernel, by simp, by decide +kernel, by simp, by decide +kernel, by simp, by decide +kernel, by simp,
      by decide +kernel, by simp, by (show _ = _); decide +kernel⟩
  · decide +kernel

/-- A composition is given completely: a fraction list without unknown entries and with a non-zero sum, or a flow list
without unknown entries. -/
def Complete (s : Args) : Prop :=
  (∃ c ∈ [CV.zs, CV.ws, CV.Vfls, CV.Vfgs], ∃ l : List ℚ, s.cf c = some (l.map some) ∧ l.sum ≠ 0) ∨
  ∃ c ∈ [CV.ns, CV.ms, CV.Qls, CV.Qgs], ∃ l : List ℚ, s.cf c = some (l.map some)

theorem all_known (l : CList) : l.all Option.isSome = true ↔ ∃ r : List ℚ, l = r.map some := by
  induction l with
  | nil => simp
  | cons x l ih =>
    rw [List.all_cons, Bool.and_eq_true, ih]
    constructor
    · rintro ⟨hx, r, rfl⟩
      obtain ⟨v, rfl⟩ := Option.isSome_iff_exists.1 hx
      exact ⟨v :: r, rfl⟩
    · rintro ⟨r, hr⟩
      cases r with
      | nil => simp at hr
      | cons v r => simp at hr; exact ⟨by simp [hr.1], r, hr.2⟩

theorem compositionSpecified_iff (s : Args) : compositionSpecified s = true ↔ Complete s := by
  have hsum : ∀ r : List ℚ, ((r.map some).map fun x : Option ℚ => x.getD 0).sum = r.sum := by
    intro r; simp [List.map_map, Function.comp_def]
  have hfrac : ∀ o : Option CList, (match o with
      | some l => l.all Option.isSome && decide ((l.map fun x => x.getD 0).sum ≠ 0)
      | none => false) = true ↔ ∃ l : List ℚ, o = some (l.map some) ∧ l.sum ≠ 0 := by
    intro o
    cases o with
    | none => simp
    | some l =>
      dsimp only
      rw [Bool.and_eq_true, all_known, decide_eq_true_eq]
      constructor
      · rintro ⟨⟨r, rfl⟩, h⟩; rw [hsum] at h; exact ⟨r, rfl, h⟩
      · rintro ⟨r, hr, h⟩; cases hr; exact ⟨⟨r, rfl⟩, by rw [hsum]; exact h⟩
  have hflow : ∀ o : Option CList, (match o with
      | some l => l.all Option.isSome
      | none => false) = true ↔ ∃ l : List ℚ, o = some (l.map some) := by
    intro o
    cases o with
    | none => simp
    | some l => dsimp only; rw [all_known]; simp
  unfold compositionSpecified Complete
  simp only [Bool.or_eq_true, hfrac, hflow, List.mem_cons, List.not_mem_nil, or_false, or_assoc, exists_eq_or_imp,
    exists_eq_left]

/-- **C04.** `flash_state` returns without flashing exactly when no composition is given completely or the state is not specified:
a composition of zeros is not flashed. -/
theorem C04_flashes_iff {Fl R : Type} (env : Env) (flash : Fl → FlashArgs → R) (o : Obj Fl R) :
    (flashState env flash o).2 = .notSpecified ↔ ¬ (Complete o.args ∧ stateSpecified o.args = true) := by
  rw [← compositionSpecified_iff, ← Bool.and_eq_true]
  unfold flashState
  by_cases hc : (compositionSpecified o.args && stateSpecified o.args) = true
  · rw [if_pos hc]
    simp only [hc, not_true, iff_false]
    cases resolve env o.args with
    | none => simp
    | some r =>
      dsimp only
      cases o.memo with
      | none => simp
      | some km =>
        dsimp only
        split <;> simp
  · rw [if_neg hc]
    simp [hc]

example : Complete ⟨fun _ => none, fun c => if c = .zs then some [some 1, some 2] else none, fun _ => none, false⟩
    ∧ ¬ Complete ⟨fun _ => none, fun c => if c = .zs then some [some 0, some 0] else none, fun _ => none, false⟩ := by
  refine ⟨.inl ⟨.zs, by simp, [1, 2], by simp, by decide +kernel⟩, ?_⟩
  rw [← compositionSpecified_iff]
  decide +kernel

/-- **C04 fails** for `H_mass`: after flashing at `(P, H_mass)`, changing `H_mass` and flashing
again returns the flash for the old `H_mass`. -/
theorem C04_stale_after_H_mass :
    ∃ xs : List (ObjOp Nat),
      (flashState simpleEnv echoFlash (orun simpleEnv echoFlash freshObj xs)).2
        ≠ freshFlash simpleEnv echoFlash 0 (orun simpleEnv echoFlash freshObj xs).args
      ∧ ∀ f, ObjOp.setFlasher f ∉ xs := by
  refine ⟨[.edit (.setComp .zs (some [some 1])), .edit (.setState .P (some 5)),
    .edit (.setState .H_mass (some 1)), .flash, .edit (.setState .H_mass (some 2))], ?_, ?_⟩
  · decide +kernel
  · simp

/-- **C04 fails** when the flasher is replaced. -/
theorem C04_stale_after_flasher :
    ∃ xs : List (ObjOp Nat),
      (flashState simpleEnv echoFlash (orun simpleEnv echoFlash freshObj xs)).2
        ≠ freshFlash simpleEnv echoFlash 1 (orun simpleEnv echoFlash freshObj xs).args
      ∧ (orun simpleEnv echoFlash freshObj xs).flasher = 1 := by
  refine ⟨[.edit (.setComp .zs (some [some 1])), .edit (.setState .P (some 5)),
    .edit (.setState .T (some 1)), .flash, .setFlasher 1], ?_, ?_⟩
  · decide +kernel
  · decide +kernel

end Verif.Stream
