import Verif.Serialize.Traverse
import Mathlib.Data.Finset.Image
import Mathlib.Data.Set.Function

/-!
# `as_json` / `from_json` (`/repo/thermo/serialize.py` 213-382): C08

Not modelled: `non_json_attributes`, `recalculable_attributes` (fields left out on purpose: the model
starts from the remaining fields), `vectorized` conversion of arrays (in `Arrays.lean`), `_custom_as_json`,
`json_version`, and the text format itself.
-/

namespace Verif.Serialize

/-- Field values in the JSON document. References have become strings. -/
inductive JVal where
  | str (s : Str)
  | prim (p : ℤ)
  | data (p : ℤ)
  | list (l : List Str)
  | dict (l : List (Str × Str))
  deriving DecidableEq

/-- A JSON object; `cls` is the `py/object` entry, which may be absent. -/
structure JObj where
  cls : Option Str
  fields : List (Str × JVal)
  deriving DecidableEq

/-- A JSON document: `num_to_object`. -/
abbrev Doc := Str → Option JObj

/-- `'pyid_'`. -/
def tag : Str := ['p', 'y', 'i', 'd', '_']

/-- `f'pyid_{num}'` (serialize.py 285, 297, 308). -/
def pyid (n : ℕ) : Str := tag ++ Nat.toDigits 10 n

/-- `o.startswith('pyid_')` (serialize.py 354, 360, 369). -/
def isTag (s : Str) : Bool := tag.isPrefixOf s

/-- Which fields of a class are searched for objects: `obj_references`, or every field when it is
`None` (serialize.py 265, 344). -/
abbrev Searched := Str → Str → Bool

/-- What `as_json` can handle in one field (serialize.py 268-311): in a searched field a container of
primitives makes `v.as_json` raise `AttributeError`; in a field that is not searched an object
reference stays in the output and the JSON text cannot be written. -/
def encodable (srch : Searched) (cls : Str) (e : Str × Val ℕ) : Bool :=
  match srch cls e.1, e.2 with
  | true, .data _ => false
  | true, _ => true
  | false, .str _ => true
  | false, .prim _ => true
  | false, .data _ => true
  | false, _ => false

/-- The heap as seen by `as_json`: `None` where it raises. -/
def encSrc (srch : Searched) (H : ℕ → Option (Obj ℕ)) (i : ℕ) : Option (Obj ℕ) :=
  match H i with
  | none => none
  | some o => if o.fields.all (encodable srch o.cls) then some o else none

/-- Writing a walked value: references become strings (serialize.py 288-289, 300-301, 311). -/
def renderVal : Val Str → JVal
  | .str s => .str s
  | .prim p => .prim p
  | .data p => .data p
  | .ref s => .str s
  | .refs l => .list l
  | .dict l => .dict l

/-- Writing an object with its class path (serialize.py 315). -/
def renderObj (o : Obj Str) : JObj := ⟨some o.cls, o.fields.map (fun e => (e.1, renderVal e.2))⟩

/-- `as_json` (serialize.py 233-324). -/
def asJson (srch : Searched) (H : ℕ → Option (Obj ℕ)) (fuel : ℕ) (root : ℕ) : Option Doc :=
  (walk pyid (encSrc srch H) fuel root).map (fun st s => (st.tbl s).map renderObj)

/-- Reading a field value (serialize.py 348-375): in a searched field a string starting with `pyid_`
is a reference; a list (dict) is a list of references when its first entry is such a string. A
non-empty list of other strings stays as data. -/
def parseVal (searched : Bool) : JVal → Val Str
  | .prim p => .prim p
  | .data p => .data p
  | .str s => if searched && isTag s then .ref s else .str s
  | .list [] => .refs []
  | .list (s :: l) => if searched && isTag s then .refs (s :: l) else .data 0
  | .dict [] => .dict []
  | .dict (e :: l) => if searched && isTag e.2 then .dict (e :: l) else .data 0

/-- The document as seen by `from_json`: a missing name or a missing `py/object` entry raises
`KeyError` (serialize.py 330-333). -/
def decSrc (srch : Searched) (doc : Doc) (s : Str) : Option (Obj Str) :=
  match doc s with
  | none => none
  | some j =>
    match j.cls with
    | none => none
    | some c => some ⟨c, j.fields.map (fun e => (e.1, parseVal (srch c e.1) e.2))⟩

/-- `from_json` (serialize.py 326-382): the new objects, numbered in order of creation, and the
document afterwards, in which the `py/object` entry of every visited object has been deleted in
place (334-335). -/
def fromJson (srch : Searched) (doc : Doc) (fuel : ℕ) : Option ((ℕ → Option (Obj ℕ)) × Doc) :=
  (walk (fun n => n) (decSrc srch doc) fuel (pyid 0)).map (fun st =>
    (st.tbl, fun s => if s ∈ st.ids then (doc s).map (fun j => { j with cls := none }) else doc s))

/-! ## Specification -/

/-- Objects reachable from the root. -/
inductive Reach (H : ℕ → Option (Obj ℕ)) (root : ℕ) : ℕ → Prop
  | root : Reach H root root
  | step {i j : ℕ} {o : Obj ℕ} : Reach H root i → H i = some o → j ∈ o.keys → Reach H root j

/-- A field that survives: in a searched field no container of primitives and no string starting
with `pyid_`; in other fields only strings and data. -/
def CleanField (srch : Searched) (cls : Str) (e : Str × Val ℕ) : Prop :=
  (srch cls e.1 = true → (∀ p, e.2 ≠ .data p) ∧ ∀ s, e.2 = .str s → ¬ tag <+: s) ∧
  (srch cls e.1 = false → (∃ s, e.2 = .str s) ∨ (∃ p, e.2 = .prim p) ∨ ∃ p, e.2 = .data p)

/-! ## Helpers -/

theorem pyid_injective : Function.Injective pyid := by
  intro m n h
  have h' : Nat.toDigits 10 m = Nat.toDigits 10 n := List.append_cancel_left h
  have := congrArg (fun l => Nat.ofDigitChars 10 l 0) h'
  simpa [Nat.ofDigitChars_toDigits] using this

theorem isTag_pyid (n : ℕ) : isTag (pyid n) = true := by
  simp [isTag, pyid, tag]

theorem isTag_iff (s : Str) : isTag s = true ↔ tag <+: s := by simp [isTag]

theorem parse_render {srch : Searched} {cls : Str} {e : Str × Val ℕ} (h : CleanField srch cls e)
    (f : ℕ → ℕ) : parseVal (srch cls e.1) (renderVal (e.2.map (fun k => pyid (f k))))
      = e.2.map (fun k => pyid (f k)) := by
  obtain ⟨h1, h2⟩ := h
  cases hs : srch cls e.1 with
  | true =>
    obtain ⟨ha, hb⟩ := h1 hs
    cases he : e.2 with
    | str s =>
      have : isTag s = false := by
        rw [Bool.eq_false_iff]; intro ht; exact hb s he ((isTag_iff s).1 ht)
      simp [Val.map, renderVal, parseVal, this]
    | prim p => simp [Val.map, renderVal, parseVal]
    | data p => exact absurd he (ha p)
    | ref k => simp [Val.map, renderVal, parseVal, isTag_pyid]
    | refs l => cases l <;> simp [Val.map, renderVal, parseVal, isTag_pyid]
    | dict l => cases l <;> simp [Val.map, renderVal, parseVal, isTag_pyid]
  | false =>
    rcases h2 hs with ⟨s, he⟩ | ⟨p, he⟩ | ⟨p, he⟩ <;> simp [he, Val.map, renderVal, parseVal]

theorem encSrc_clean {srch : Searched} {H : ℕ → Option (Obj ℕ)} {i : ℕ} {o : Obj ℕ}
    (h : H i = some o) (hc : ∀ e ∈ o.fields, CleanField srch o.cls e) :
    encSrc srch H i = some o := by
  simp only [encSrc, h]
  rw [if_pos]
  rw [List.all_eq_true]
  intro e he
  obtain ⟨h1, h2⟩ := hc e he
  unfold encodable
  cases hs : srch o.cls e.1 with
  | true =>
    cases hv : e.2 with
    | data p => exact absurd hv ((h1 hs).1 p)
    | _ => rfl
  | false => rcases h2 hs with ⟨s, he⟩ | ⟨p, he⟩ | ⟨p, he⟩ <;> simp [he]

section Closed

variable {L : Type} {nm : ℕ → L} {src : ℕ → Option (Obj ℕ)} [DecidableEq L]

/-- What a successful step from `st` to `st'` shows about the source. -/
def Step (src : ℕ → Option (Obj ℕ)) (st st' : St ℕ L) (ks : List ℕ) : Prop :=
  (∀ x ∈ st.ids, x ∈ st'.ids) ∧ (∀ x ∈ ks, x ∈ st'.ids)
    ∧ ∀ x ∈ st'.ids, x ∉ st.ids → ∃ s, src x = some s ∧ ∀ y ∈ s.keys, y ∈ st'.ids

theorem Step.trans {st st1 st2 : St ℕ L} {k1 k2 : List ℕ} (h1 : Step src st st1 k1) (h2 : Step src st1 st2 k2) :
    Step src st st2 (k1 ++ k2) := by
  refine ⟨fun x hx => h2.1 x (h1.1 x hx), fun x hx => ?_, fun x hx hn => ?_⟩
  · rcases List.mem_append.1 hx with h | h
    · exact h2.1 x (h1.2.1 x h)
    · exact h2.2.1 x h
  · by_cases hx1 : x ∈ st1.ids
    · obtain ⟨s, hs, hk⟩ := h1.2.2 x hx1 hn
      exact ⟨s, hs, fun y hy => h2.1 y (hk y hy)⟩
    · exact h2.2.2 x hx hx1

/-- What the recursive call guarantees. -/
def Rec (src : ℕ → Option (Obj ℕ)) (rec : ℕ → St ℕ L → Option (Obj L × St ℕ L)) : Prop :=
  ∀ k st o st', rec k st = some (o, st') → ∃ s, src k = some s ∧ Step src st st' s.keys

theorem visitRef_step {rec : ℕ → St ℕ L → Option (Obj L × St ℕ L)} (hr : Rec src rec) {k : ℕ} {st st' : St ℕ L} {n : L}
    (h : visitRef nm rec k st = some (n, st')) : Step src st st' [k] := by
  unfold visitRef at h
  by_cases hk : k ∈ st.ids
  · rw [if_pos hk] at h
    cases h
    exact ⟨fun x hx => hx, fun x hx => by rw [List.mem_singleton.1 hx]; exact hk, fun x hx hn => absurd hx hn⟩
  · rw [if_neg hk] at h
    cases hv : rec k ⟨st.ids ++ [k], st.tbl⟩ with
    | none => rw [hv] at h; exact absurd h (by simp)
    | some r =>
      obtain ⟨o, st1⟩ := r
      rw [hv] at h
      cases h
      obtain ⟨s, hs, h1, h2, h3⟩ := hr k _ o st1 hv
      refine ⟨fun x hx => h1 x (by simp [hx]), fun x hx => ?_, fun x hx hn => ?_⟩
      · rw [List.mem_singleton.1 hx]; exact h1 k (by simp)
      · by_cases hxk : x = k
        · subst hxk; exact ⟨s, hs, h2⟩
        · exact h3 x hx (by simp [hn, hxk])

theorem visitList_step {rec : ℕ → St ℕ L → Option (Obj L × St ℕ L)} (hr : Rec src rec) (ks : List ℕ) :
    ∀ {st st' : St ℕ L} {ns : List L}, visitList nm rec ks st = some (ns, st') → Step src st st' ks := by
  induction ks with
  | nil =>
    intro st st' ns h
    cases h
    exact ⟨fun x hx => hx, by simp, fun x hx hn => absurd hx hn⟩
  | cons k ks ih =>
    intro st st' ns h
    unfold visitList at h
    cases h1 : visitRef nm rec k st with
    | none => rw [h1] at h; exact absurd h (by simp)
    | some r =>
      rw [h1] at h
      dsimp only at h
      cases h2 : visitList nm rec ks r.2 with
      | none => rw [h2] at h; exact absurd h (by simp)
      | some q =>
        rw [h2] at h
        cases h
        exact (visitRef_step hr h1).trans (ih h2)

theorem visitVal_step {rec : ℕ → St ℕ L → Option (Obj L × St ℕ L)} (hr : Rec src rec) {v : Val ℕ} {st st' : St ℕ L} {w : Val L}
    (h : visitVal nm rec v st = some (w, st')) : Step src st st' v.keys := by
  have h0 : Step src st st [] := ⟨fun x hx => hx, by simp, fun x hx hn => absurd hx hn⟩
  cases v with
  | str s => cases h; exact h0
  | prim s => cases h; exact h0
  | data s => cases h; exact h0
  | ref k =>
    simp only [visitVal, Option.map_eq_some_iff, Prod.mk.injEq] at h
    obtain ⟨r, hr', _, rfl⟩ := h
    exact visitRef_step hr hr'
  | refs l =>
    simp only [visitVal, Option.map_eq_some_iff, Prod.mk.injEq] at h
    obtain ⟨r, hr', _, rfl⟩ := h
    exact visitList_step hr _ hr'
  | dict l =>
    simp only [visitVal, Option.map_eq_some_iff, Prod.mk.injEq] at h
    obtain ⟨r, hr', _, rfl⟩ := h
    exact visitList_step hr _ hr'

theorem visitFields_step {rec : ℕ → St ℕ L → Option (Obj L × St ℕ L)} (hr : Rec src rec) (fs : List (Str × Val ℕ)) :
    ∀ {st st' : St ℕ L} {ws : List (Str × Val L)}, visitFields nm rec fs st = some (ws, st') →
      Step src st st' (fs.flatMap fun e => e.2.keys) := by
  induction fs with
  | nil =>
    intro st st' ws h
    cases h
    exact ⟨fun x hx => hx, by simp, fun x hx hn => absurd hx hn⟩
  | cons e es ih =>
    intro st st' ws h
    unfold visitFields at h
    cases h1 : visitVal nm rec e.2 st with
    | none => rw [h1] at h; exact absurd h (by simp)
    | some r =>
      rw [h1] at h
      dsimp only at h
      cases h2 : visitFields nm rec es r.2 with
      | none => rw [h2] at h; exact absurd h (by simp)
      | some q =>
        rw [h2] at h
        cases h
        exact (visitVal_step hr h1).trans (ih h2)

theorem visit_step (fuel : ℕ) : Rec src (visit nm src fuel) := by
  induction fuel with
  | zero => intro k st o st' h; cases h
  | succ fuel ih =>
    intro k st o st' h
    unfold visit at h
    cases hs : src k with
    | none => rw [hs] at h; exact absurd h (by simp)
    | some s =>
      rw [hs] at h
      dsimp only at h
      cases h2 : visitFields nm (visit nm src fuel) s.fields st with
      | none => rw [h2] at h; exact absurd h (by simp)
      | some q =>
        rw [h2] at h
        cases h
        exact ⟨s, rfl, visitFields_step ih _ h2⟩

end Closed

/-! ## C08 -/

/-- A field `as_json` raises on: a container of primitives in a field searched for objects, or a reference in a field that is not searched. -/
def Unwritable (srch : Searched) (cls : Str) (e : Str × Val ℕ) : Prop :=
  (srch cls e.1 = true ∧ ∃ p, e.2 = .data p) ∨
  (srch cls e.1 = false ∧ ((∃ k, e.2 = .ref k) ∨ (∃ l, e.2 = .refs l) ∨ ∃ l, e.2 = .dict l))

/-- **C08.** Objects that cannot be written are not written silently: if an object reachable from the root has such a field, `as_json`
raises. -/
theorem C08_unwritable_raises (srch : Searched) (H : ℕ → Option (Obj ℕ)) (root fuel i : ℕ) (o : Obj ℕ) (e : Str × Val ℕ)
    (hi : Reach H root i) (ho : H i = some o) (he : e ∈ o.fields) (hu : Unwritable srch o.cls e) :
    asJson srch H fuel root = none := by
  cases hd : asJson srch H fuel root with
  | none => rfl
  | some doc =>
    exfalso
    unfold asJson walk at hd
    cases hv : visit pyid (encSrc srch H) fuel root ⟨[root], fun _ => none⟩ with
    | none => rw [hv] at hd; exact absurd hd (by simp)
    | some r =>
      obtain ⟨w, st⟩ := r
      obtain ⟨s, hs, h1, h2, h3⟩ := visit_step fuel root _ _ _ hv
      have hsrc : ∀ {j s}, encSrc srch H j = some s → H j = some s ∧ s.fields.all (encodable srch s.cls) = true := by
        intro j s hj
        unfold encSrc at hj
        cases hH : H j with
        | none => rw [hH] at hj; exact absurd hj (by simp)
        | some o =>
          rw [hH] at hj
          dsimp only at hj
          by_cases ha : o.fields.all (encodable srch o.cls) = true
          · rw [if_pos ha] at hj; cases hj; exact ⟨rfl, ha⟩
          · rw [if_neg ha] at hj; exact absurd hj (by simp)
      have hall : ∀ j, Reach H root j → j ∈ st.ids ∧ ∃ s, encSrc srch H j = some s ∧ ∀ y ∈ s.keys, y ∈ st.ids := by
        intro j hj
        have hsrc' : ∀ x ∈ st.ids, ∃ s, encSrc srch H x = some s ∧ ∀ y ∈ s.keys, y ∈ st.ids := by
          intro x hx
          by_cases hxr : x = root
          · subst hxr; exact ⟨s, hs, h2⟩
          · exact h3 x hx (by simp [hxr])
        have hmem : j ∈ st.ids := by
          induction hj with
          | root => exact h1 root (by simp)
          | @step i j o hi ho hj ih =>
            obtain ⟨s', hs', hk⟩ := hsrc' i ih
            rw [(hsrc hs').1] at ho
            cases ho
            exact hk j hj
        exact ⟨hmem, hsrc' j hmem⟩
      obtain ⟨_, s', hs', _⟩ := hall i hi
      obtain ⟨hH, ha⟩ := hsrc hs'
      rw [ho] at hH
      cases hH
      have := List.all_eq_true.1 ha e he
      unfold encodable at this
      rcases hu with ⟨hs, p, hp⟩ | ⟨hs, ⟨k, hk⟩ | ⟨k, hk⟩ | ⟨k, hk⟩⟩
      · rw [hs, hp] at this; exact absurd this (by simp)
      all_goals rw [hs, hk] at this; exact absurd this (by simp)

example : Unwritable (fun _ _ => true) [] (['x'], .data 3) := .inl ⟨rfl, 3, rfl⟩
example : asJson (fun _ _ => true) (fun i => if i = 0 then some ⟨['A'], [(['r'], .ref 1)]⟩ else
    some ⟨['B'], [(['x'], .data 3)]⟩) 5 0 = none :=
  C08_unwritable_raises _ _ 0 5 1 ⟨['B'], [(['x'], .data 3)]⟩ (['x'], .data 3)
    (.step .root (o := ⟨['A'], [(['r'], .ref 1)]⟩) (by simp) (by simp [Obj.keys, Val.keys])) (by simp) (by simp) (.inl ⟨rfl, 3, rfl⟩)

/-- **C08 (partial).** For every heap of objects, with any sharing and cycles, whose finite set of
objects reachable from the root has only clean fields: `as_json` succeeds, `from_json` succeeds on
its result, and the loaded graph is isomorphic to the reachable part of the original — a bijection
`ρ` between reachable objects and loaded objects that preserves the root, class names, field names,
values and every reference. Recursion depth at most the number of objects suffices. Missing for the
full claim: strings starting with `pyid_` in searched fields (false, see `C08_pyid_string_corrupted`).
-/
theorem C08_round_trip_partial (srch : Searched) (H : ℕ → Option (Obj ℕ)) (root fuel : ℕ)
    (R : Finset ℕ) (hR : ∀ i, i ∈ R ↔ Reach H root i)
    (hobj : ∀ i ∈ R, ∃ o, H i = some o ∧ ∀ e ∈ o.fields, CleanField srch o.cls e)
    (hfuel : R.card ≤ fuel) :
    ∃ doc, asJson srch H fuel root = some doc ∧ ∃ new doc', fromJson srch doc fuel = some (new, doc') ∧
      ∃ ρ : ℕ → ℕ, Set.InjOn ρ R ∧ ρ root = 0 ∧
        (∀ i ∈ R, ∀ o, H i = some o → new (ρ i) = some (o.map ρ)) ∧
        ∀ n o, new n = some o → ∃ i ∈ R, ρ i = n := by
  have hroot : root ∈ R := (hR root).2 .root
  have hclosed : ∀ k ∈ R, ∃ s, encSrc srch H k = some s ∧ ∀ x ∈ s.keys, x ∈ R := by
    intro k hk
    obtain ⟨o, ho, hc⟩ := hobj k hk
    exact ⟨o, encSrc_clean ho hc, fun x hx => (hR x).2 (.step ((hR k).1 hk) ho hx)⟩
  obtain ⟨st, hw, ⟨e, he⟩, hnd, hsub, hent, honly⟩ :=
    walk_ok (nm := pyid) pyid_injective hclosed fuel root hroot hfuel
  -- every reachable object was claimed
  have hall : ∀ i, Reach H root i → i ∈ st.ids := by
    intro i hi
    induction hi with
    | root => rw [he]; simp
    | @step i j o hi ho hj ih =>
      obtain ⟨n, hn, hni⟩ := List.mem_iff_getElem.1 ih
      obtain ⟨s, hs, -, hk⟩ := hent n hn
      obtain ⟨o', ho', hc⟩ := hobj i ((hR i).2 hi)
      rw [hni, encSrc_clean ho' hc] at hs
      rw [ho] at ho'
      simp only [Option.some.injEq] at hs ho'
      subst hs; subst ho'
      exact hk j hj
  set doc : Doc := fun s => (st.tbl s).map renderObj with hdoc
  -- the document read back
  have hdec : ∀ n, (h : n < st.ids.length) → ∃ o, H (st.ids[n]) = some o ∧
      decSrc srch doc (pyid n) = some (o.map (nameIn pyid st.ids)) ∧ ∀ k ∈ o.keys, k ∈ st.ids := by
    intro n hn
    obtain ⟨s, hs, ht, hk⟩ := hent n hn
    obtain ⟨o, ho, hc⟩ := hobj st.ids[n] (hsub _ (List.getElem_mem hn))
    rw [encSrc_clean ho hc, Option.some.injEq] at hs
    subst hs
    refine ⟨o, ho, ?_, hk⟩
    simp only [decSrc, hdoc, ht, Option.map_some, renderObj, Obj.map, List.map_map,
      Option.some.injEq, Obj.mk.injEq, true_and]
    apply List.map_congr_left
    intro e' he'
    simp only [Function.comp_apply, Prod.mk.injEq, true_and]
    exact parse_render (hc e' he') (fun k => st.ids.idxOf k)
  -- second walk
  let D2 : Finset Str := (Finset.range st.ids.length).image pyid
  have hD2 : ∀ k ∈ D2, ∃ s, decSrc srch doc k = some s ∧ ∀ x ∈ s.keys, x ∈ D2 := by
    intro k hk
    obtain ⟨n, hn, rfl⟩ := Finset.mem_image.1 hk
    obtain ⟨o, ho, hd, hkk⟩ := hdec n (Finset.mem_range.1 hn)
    refine ⟨_, hd, ?_⟩
    intro x hx
    rw [Obj.keys_map] at hx
    obtain ⟨y, hy, rfl⟩ := List.mem_map.1 hx
    exact Finset.mem_image.2 ⟨_, Finset.mem_range.2 (List.idxOf_lt_length_of_mem (hkk y hy)), rfl⟩
  have hlen : 0 < st.ids.length := by rw [he]; simp
  have hcard : D2.card ≤ fuel := by
    have h1 : D2.card ≤ st.ids.length := le_trans Finset.card_image_le (by simp)
    have h2 : st.ids.length ≤ R.card := by
      rw [← List.toFinset_card_of_nodup hnd]
      exact Finset.card_le_card (fun x hx => hsub x (List.mem_toFinset.1 hx))
    omega
  obtain ⟨st2, hw2, ⟨e2, he2⟩, hnd2, hsub2, hent2, honly2⟩ :=
    walk_ok (nm := fun n : ℕ => n) (fun _ _ h => h) hD2 fuel (pyid 0)
      (Finset.mem_image.2 ⟨0, Finset.mem_range.2 hlen, rfl⟩) hcard
  let name1 : ℕ → Str := nameIn pyid st.ids
  let ρ : ℕ → ℕ := fun i => nameIn (fun n : ℕ => n) st2.ids (name1 i)
  have hidx : ∀ i ∈ st.ids, ∃ h : st.ids.idxOf i < st.ids.length, st.ids[st.ids.idxOf i] = i :=
    fun i hi => ⟨List.idxOf_lt_length_of_mem hi, List.getElem_idxOf _⟩
  have hroot1 : name1 root = pyid 0 := by simp [name1, nameIn, he]
  have hall2 : ∀ i, Reach H root i → name1 i ∈ st2.ids := by
    intro i hi
    induction hi with
    | root => rw [hroot1, he2]; simp
    | @step i j o hi ho hj ih =>
      obtain ⟨n, hn, hni⟩ := List.mem_iff_getElem.1 ih
      obtain ⟨s, hs, -, hk⟩ := hent2 n hn
      obtain ⟨hl, hget⟩ := hidx i (hall i hi)
      obtain ⟨o', ho', hd, -⟩ := hdec _ hl
      rw [hget, ho, Option.some.injEq] at ho'
      subst ho'
      rw [hni] at hs
      have : decSrc srch doc (name1 i) = some (o.map name1) := hd
      rw [this, Option.some.injEq] at hs
      subst hs
      exact hk _ (by rw [Obj.keys_map]; exact List.mem_map_of_mem hj)
  have hρ : ∀ i ∈ R, ∃ h : ρ i < st2.ids.length, st2.ids[ρ i] = name1 i := fun i hi =>
    nameIn_id (hall2 i ((hR i).1 hi))
  have hname_inj : ∀ i ∈ R, ∀ j ∈ R, name1 i = name1 j → i = j := by
    intro i hi j hj hij
    obtain ⟨h1, g1⟩ := hidx i (hall i ((hR i).1 hi))
    obtain ⟨h2, g2⟩ := hidx j (hall j ((hR j).1 hj))
    have : st.ids.idxOf i = st.ids.idxOf j := pyid_injective hij
    rw [← g1, ← g2]
    simp only [this]
  refine ⟨doc, by simp [asJson, hw, hdoc], st2.tbl, _, by simp [fromJson, hw2]; rfl, ρ, ?_, ?_, ?_, ?_⟩
  · intro i hi j hj hij
    obtain ⟨h1, g1⟩ := hρ i hi
    obtain ⟨h2, g2⟩ := hρ j hj
    apply hname_inj i hi j hj
    rw [← g1, ← g2]
    simp only [hij]
  · simp only [ρ, hroot1, he2]
    exact nameIn_head _ _
  · intro i hi o ho
    obtain ⟨h1, g1⟩ := hρ i hi
    obtain ⟨s, hs, ht, -⟩ := hent2 _ h1
    obtain ⟨hl, hget⟩ := hidx i (hall i ((hR i).1 hi))
    obtain ⟨o', ho', hd, -⟩ := hdec _ hl
    rw [hget, ho, Option.some.injEq] at ho'
    subst ho'
    have : decSrc srch doc (name1 i) = some (o.map name1) := hd
    rw [g1, this, Option.some.injEq] at hs
    subst hs
    rw [ht, Obj.map_map]
    rfl
  · intro n o hn
    obtain ⟨m, hm, hnm⟩ := honly2 n (by rw [hn]; simp)
    subst hnm
    have hmem := hsub2 _ (List.getElem_mem hm)
    obtain ⟨q, hq, hqe⟩ := Finset.mem_image.1 hmem
    have hql := Finset.mem_range.1 hq
    refine ⟨st.ids[q], hsub _ (List.getElem_mem hql), ?_⟩
    have h1 : name1 (st.ids[q]) = st2.ids[n] := by
      rw [← hqe]; simp [name1, nameIn, List.Nodup.idxOf_getElem hnd]
    simp only [ρ, h1]
    exact nameIn_getElem hnd2 n hm

/-- A heap with sharing, a cycle, a list and a dict of references, and clean fields. -/
def demoHeap : ℕ → Option (Obj ℕ)
  | 0 => some ⟨['A'], [(['x'], .refs [1, 1, 2]), (['s'], .str ['h', 'i']), (['n'], .prim 5)]⟩
  | 1 => some ⟨['B'], [(['y'], .ref 0)]⟩
  | 2 => some ⟨['B'], [(['z'], .dict [(['k'], 1)])]⟩
  | _ => none

/-- The demo heap meets the hypotheses of the round trip. -/
example : (∀ i, i ∈ ({0, 1, 2} : Finset ℕ) ↔ Reach demoHeap 0 i) ∧
    (∀ i ∈ ({0, 1, 2} : Finset ℕ), ∃ o, demoHeap i = some o ∧
      ∀ e ∈ o.fields, CleanField (fun _ _ => true) o.cls e) := by
  have r1 : Reach demoHeap 0 1 := .step .root rfl (by decide)
  have r2 : Reach demoHeap 0 2 := .step .root rfl (by decide)
  refine ⟨fun i => ⟨?_, ?_⟩, ?_⟩
  · intro h
    simp only [Finset.mem_insert, Finset.mem_singleton] at h
    rcases h with rfl | rfl | rfl
    · exact .root
    · exact r1
    · exact r2
  · intro h
    induction h with
    | root => simp
    | @step i j o _ ho hj ih =>
      simp only [Finset.mem_insert, Finset.mem_singleton] at ih
      rcases ih with rfl | rfl | rfl <;> simp only [demoHeap, Option.some.injEq] at ho <;> subst ho <;>
        simp [Obj.keys, Val.keys] at hj <;> rcases hj with rfl | rfl <;> simp
  · intro i hi
    simp only [Finset.mem_insert, Finset.mem_singleton] at hi
    rcases hi with rfl | rfl | rfl
    · refine ⟨_, rfl, ?_⟩
      intro e he
      simp only [List.mem_cons, List.not_mem_nil, or_false] at he
      rcases he with rfl | rfl | rfl
      · exact ⟨fun _ => ⟨by simp, by simp⟩, by simp⟩
      · exact ⟨fun _ => ⟨by simp, by intro s hs; cases hs; decide⟩, by simp⟩
      · exact ⟨fun _ => ⟨by simp, by simp⟩, by simp⟩
    · refine ⟨_, rfl, ?_⟩
      intro e he
      simp only [List.mem_cons, List.not_mem_nil, or_false] at he
      subst he
      exact ⟨fun _ => ⟨by simp, by simp⟩, by simp⟩
    · refine ⟨_, rfl, ?_⟩
      intro e he
      simp only [List.mem_cons, List.not_mem_nil, or_false] at he
      subst he
      exact ⟨fun _ => ⟨by simp, by simp⟩, by simp⟩

/-- **C08 fails** for strings that look like references: an object whose only field is the string
`pyid_0` comes back with a reference to itself in that field. -/
theorem C08_pyid_string_corrupted :
    ∃ (H : ℕ → Option (Obj ℕ)) (doc : Doc) (new : ℕ → Option (Obj ℕ)) (doc' : Doc),
      H 0 = some ⟨['A'], [(['s'], .str ['p', 'y', 'i', 'd', '_', '0'])]⟩ ∧
      asJson (fun _ _ => true) H 1 0 = some doc ∧ fromJson (fun _ _ => true) doc 1 = some (new, doc') ∧
      new 0 = some ⟨['A'], [(['s'], .ref 0)]⟩ := by
  refine ⟨fun _ => some ⟨['A'], [(['s'], .str ['p', 'y', 'i', 'd', '_', '0'])]⟩, _, _, _, rfl, rfl,
    rfl, rfl⟩

/-- **C46.** Loading consumes its argument: `from_json` deletes the `py/object` entries of the
dictionary it is given, so a second `from_json` on the same dictionary always raises. -/
theorem C46_second_load_raises (srch : Searched) (doc : Doc) (fuel fuel' : ℕ)
    (new : ℕ → Option (Obj ℕ)) (doc' : Doc) (h : fromJson srch doc fuel = some (new, doc')) :
    fromJson srch doc' fuel' = none := by
  unfold fromJson at h
  rw [Option.map_eq_some_iff] at h
  obtain ⟨st, hst, heq⟩ := h
  simp only [Prod.mk.injEq] at heq
  have hmem : pyid 0 ∈ st.ids := by
    -- claimed names are never released
    have mono : ∀ (f : ℕ), ∀ k (s0 : St Str ℕ) o s1, visit (fun n => n) (decSrc srch doc) f k s0
        = some (o, s1) → ∀ x ∈ s0.ids, x ∈ s1.ids := by
      intro f
      induction f with
      | zero => intro k s0 o s1 h; simp [visit] at h
      | succ f ih =>
        have hr : ∀ k (s0 : St Str ℕ) o s1, visitRef (fun n => n) (visit (fun n => n)
            (decSrc srch doc) f) k s0 = some (o, s1) → ∀ x ∈ s0.ids, x ∈ s1.ids := by
          intro k s0 o s1 h x hx
          unfold visitRef at h
          split_ifs at h with hk
          · simp only [Option.some.injEq, Prod.mk.injEq] at h; rw [← h.2]; exact hx
          · split at h
            · simp at h
            · rename_i o' st' hv
              simp only [Option.some.injEq, Prod.mk.injEq] at h
              rw [← h.2]
              exact ih _ _ _ _ hv x (List.mem_append_left _ hx)
        have hl : ∀ ks (s0 : St Str ℕ) o s1, visitList (fun n => n) (visit (fun n => n)
            (decSrc srch doc) f) ks s0 = some (o, s1) → ∀ x ∈ s0.ids, x ∈ s1.ids := by
          intro ks
          induction ks with
          | nil => intro s0 o s1 h x hx; simp [visitList] at h; rw [← h.2]; exact hx
          | cons k ks ihk =>
            intro s0 o s1 h x hx
            simp only [visitList] at h
            split at h
            · simp at h
            · rename_i l st1 h1
              split at h
              · simp at h
              · rename_i ls st2 h2
                simp only [Option.some.injEq, Prod.mk.injEq] at h
                rw [← h.2]
                exact ihk _ _ _ h2 x (hr _ _ _ _ h1 x hx)
        have hv : ∀ v (s0 : St Str ℕ) o s1, visitVal (fun n => n) (visit (fun n => n)
            (decSrc srch doc) f) v s0 = some (o, s1) → ∀ x ∈ s0.ids, x ∈ s1.ids := by
          intro v s0 o s1 h x hx
          cases v with
          | ref k =>
            simp only [visitVal, Option.map_eq_some_iff] at h
            obtain ⟨r, hr1, hr2⟩ := h
            simp only [Prod.mk.injEq] at hr2
            rw [← hr2.2]; exact hr _ _ r.1 r.2 hr1 x hx
          | refs l =>
            simp only [visitVal, Option.map_eq_some_iff] at h
            obtain ⟨r, hr1, hr2⟩ := h
            simp only [Prod.mk.injEq] at hr2
            rw [← hr2.2]; exact hl _ _ r.1 r.2 hr1 x hx
          | dict l =>
            simp only [visitVal, Option.map_eq_some_iff] at h
            obtain ⟨r, hr1, hr2⟩ := h
            simp only [Prod.mk.injEq] at hr2
            rw [← hr2.2]; exact hl _ _ r.1 r.2 hr1 x hx
          | _ => simp only [visitVal, Option.some.injEq, Prod.mk.injEq] at h; rw [← h.2]; exact hx
        have hf : ∀ fs (s0 : St Str ℕ) o s1, visitFields (fun n => n) (visit (fun n => n)
            (decSrc srch doc) f) fs s0 = some (o, s1) → ∀ x ∈ s0.ids, x ∈ s1.ids := by
          intro fs
          induction fs with
          | nil => intro s0 o s1 h x hx; simp [visitFields] at h; rw [← h.2]; exact hx
          | cons k ks ihk =>
            intro s0 o s1 h x hx
            simp only [visitFields] at h
            split at h
            · simp at h
            · rename_i l st1 h1
              split at h
              · simp at h
              · rename_i ls st2 h2
                simp only [Option.some.injEq, Prod.mk.injEq] at h
                rw [← h.2]
                exact ihk _ _ _ h2 x (hv _ _ _ _ h1 x hx)
        intro k s0 o s1 h x hx
        simp only [visit] at h
        split at h
        · simp at h
        · split at h
          · simp at h
          · rename_i fs st' hfs
            simp only [Option.some.injEq, Prod.mk.injEq] at h
            rw [← h.2]
            exact hf _ _ _ _ hfs x hx
    unfold walk at hst
    split at hst
    · simp at hst
    · rename_i o st' hv
      simp only [Option.some.injEq] at hst
      rw [← hst]
      exact mono _ _ _ _ _ hv _ (by simp)
  have hnone : decSrc srch doc' (pyid 0) = none := by
    rw [← heq.2]
    simp only [decSrc, hmem, if_true]
    cases doc (pyid 0) <;> simp
  unfold fromJson walk
  cases fuel' with
  | zero => simp [visit]
  | succ f => simp [visit, hnone]

/-- The hypothesis of `C46_second_load_raises` is met by the demo heap. -/
example : ∃ doc, asJson (fun _ _ => true) demoHeap 3 0 = some doc ∧
    (fromJson (fun _ _ => true) doc 3).isSome = true := ⟨_, rfl, by decide +kernel⟩

end Verif.Serialize
