import Mathlib.Data.Finset.Card
import Mathlib.Data.List.Nodup
import Mathlib.Data.Finset.Dedup
import Mathlib.Logic.Function.Basic

/-!
# Depth-first copy of an object graph with a memo table

Both directions of `JsonOptEncodable` (`/repo/thermo/serialize.py` 213-382) walk an object graph
depth first, claim a new name for an object before descending into it, and look names up in a table:
`as_json` claims `pyid_k` (281-310), `from_json` claims a fresh object in `cache` (338-339, 355-375).
This file has the common walk, parametrised by the naming of the `n`-th claimed object.
-/

namespace Verif.Serialize

/-- Strings as lists of characters. -/
abbrev Str := List Char

/-- A field value: a string, another primitive (`None`, `bool`, `int`, `float`), a container of
primitives (list, dict, tuple, array), a reference, a list of references, a dict of references. -/
inductive Val (K : Type) where
  | str (s : Str)
  | prim (p : ℤ)
  | data (p : ℤ)
  | ref (k : K)
  | refs (l : List K)
  | dict (l : List (Str × K))
  deriving DecidableEq

/-- An object: class name and fields in order (`object_data`, serialize.py 248). -/
structure Obj (K : Type) where
  cls : Str
  fields : List (Str × Val K)
  deriving DecidableEq

variable {K L M : Type}

/-- References held by a value. -/
def Val.keys : Val K → List K
  | .ref k => [k]
  | .refs l => l
  | .dict l => l.map Prod.snd
  | _ => []

/-- Renaming references. -/
def Val.map (f : K → L) : Val K → Val L
  | .str s => .str s
  | .prim p => .prim p
  | .data p => .data p
  | .ref k => .ref (f k)
  | .refs l => .refs (l.map f)
  | .dict l => .dict (l.map (fun e => (e.1, f e.2)))

/-- References held by an object. -/
def Obj.keys (o : Obj K) : List K := o.fields.flatMap (fun e => e.2.keys)

/-- Renaming all references of an object. -/
def Obj.map (f : K → L) (o : Obj K) : Obj L := ⟨o.cls, o.fields.map (fun e => (e.1, e.2.map f))⟩

theorem Val.map_map (f : K → L) (g : L → M) (v : Val K) : (v.map f).map g = v.map (g ∘ f) := by
  cases v <;> simp [Val.map]

theorem Obj.map_map (f : K → L) (g : L → M) (o : Obj K) : (o.map f).map g = o.map (g ∘ f) := by
  simp [Obj.map, Val.map_map]

theorem Val.map_congr {f g : K → L} (v : Val K) (h : ∀ k ∈ v.keys, f k = g k) :
    v.map f = v.map g := by
  cases v with
  | ref k => simp [Val.map, h k (by simp [Val.keys])]
  | refs l => simp only [Val.map, Val.refs.injEq]; exact List.map_congr_left (fun k hk => h k hk)
  | dict l =>
    simp only [Val.map, Val.dict.injEq]
    exact List.map_congr_left (fun e he => by
      rw [h e.2 (by simp only [Val.keys, List.mem_map]; exact ⟨e, he, rfl⟩)])
  | _ => rfl

theorem Obj.map_congr {f g : K → L} (o : Obj K) (h : ∀ k ∈ o.keys, f k = g k) :
    o.map f = o.map g := by
  simp only [Obj.map, Obj.mk.injEq, true_and]
  apply List.map_congr_left
  intro e he
  rw [Val.map_congr e.2 (fun k hk => h k (List.mem_flatMap.2 ⟨e, he, hk⟩))]

theorem Val.keys_map (f : K → L) (v : Val K) : (v.map f).keys = v.keys.map f := by
  cases v <;> simp [Val.map, Val.keys]

theorem Obj.keys_map (f : K → L) (o : Obj K) : (o.map f).keys = o.keys.map f := by
  simp [Obj.map, Obj.keys, List.flatMap_map, List.map_flatMap, Val.keys_map]

section Walk

variable [DecidableEq K] [DecidableEq L]

/-- Walk state: objects claimed so far, in order (`id_to_num_str` / keys of `cache`), and the finished
images (`num_to_object` / the attributes set on the new objects). -/
structure St (K L : Type) where
  ids : List K
  tbl : L → Option (Obj L)

variable (nm : ℕ → L)

/-- One reference (serialize.py 281-288, 293-300, 304-311; 355-357, 363-365, 372-374): known objects
are looked up; a new object claims the next name first, then is walked, then stored. -/
def visitRef (rec : K → St K L → Option (Obj L × St K L)) (k : K) (st : St K L) :
    Option (L × St K L) :=
  if k ∈ st.ids then some (nm (st.ids.idxOf k), st)
  else
    match rec k ⟨st.ids ++ [k], st.tbl⟩ with
    | none => none
    | some (o, st') =>
      some (nm st.ids.length, ⟨st'.ids, Function.update st'.tbl (nm st.ids.length) (some o)⟩)

/-- The loop over a list of references (280-288, 362-365). -/
def visitList (rec : K → St K L → Option (Obj L × St K L)) : List K → St K L →
    Option (List L × St K L)
  | [], st => some ([], st)
  | k :: ks, st =>
    match visitRef nm rec k st with
    | none => none
    | some (l, st1) =>
      match visitList rec ks st1 with
      | none => none
      | some (ls, st2) => some (l :: ls, st2)

/-- One field value (273-311, 353-375). -/
def visitVal (rec : K → St K L → Option (Obj L × St K L)) (v : Val K) (st : St K L) :
    Option (Val L × St K L) :=
  match v with
  | .str s => some (.str s, st)
  | .prim p => some (.prim p, st)
  | .data p => some (.data p, st)
  | .ref k => (visitRef nm rec k st).map (fun r => (.ref r.1, r.2))
  | .refs l => (visitList nm rec l st).map (fun r => (.refs r.1, r.2))
  | .dict l => (visitList nm rec (l.map Prod.snd) st).map
      (fun r => (.dict ((l.map Prod.fst).zip r.1), r.2))

/-- All fields in order (268-311, 348-375). -/
def visitFields (rec : K → St K L → Option (Obj L × St K L)) : List (Str × Val K) → St K L →
    Option (List (Str × Val L) × St K L)
  | [], st => some ([], st)
  | e :: es, st =>
    match visitVal nm rec e.2 st with
    | none => none
    | some (v, st1) =>
      match visitFields rec es st1 with
      | none => none
      | some (vs, st2) => some ((e.1, v) :: vs, st2)

/-- The recursive walk of one claimed object; `fuel` bounds the recursion depth (Python's own
recursion limit; the theorems show that the number of objects is enough). -/
def visit (src : K → Option (Obj K)) : ℕ → K → St K L → Option (Obj L × St K L)
  | 0, _, _ => none
  | fuel + 1, k, st =>
    match src k with
    | none => none
    | some o =>
      match visitFields nm (visit src fuel) o.fields st with
      | none => none
      | some (fs, st') => some (⟨o.cls, fs⟩, st')

/-- The whole walk from a root, which claims name 0 (242-243, 322; 329, 339). -/
def walk (src : K → Option (Obj K)) (fuel : ℕ) (root : K) : Option (St K L) :=
  match visit nm src fuel root ⟨[root], fun _ => none⟩ with
  | none => none
  | some (o, st) => some ⟨st.ids, Function.update st.tbl (nm 0) (some o)⟩

/-! ## Correctness of the walk -/

/-- Name of `k` under the claims `ids`. -/
def nameIn (ids : List K) (k : K) : L := nm (ids.idxOf k)

/-- What a walk step from `st` to `st'` guarantees. -/
structure Post (src : K → Option (Obj K)) (D : Finset K) (st st' : St K L) : Prop where
  ext : ∃ e, st'.ids = st.ids ++ e
  nodup : st'.ids.Nodup
  sub : ∀ k ∈ st'.ids, k ∈ D
  fresh : ∀ n, (h : n < st'.ids.length) → st.ids.length ≤ n →
    ∃ s, src (st'.ids[n]) = some s ∧ st'.tbl (nm n) = some (s.map (nameIn nm st'.ids)) ∧
      ∀ k ∈ s.keys, k ∈ st'.ids
  frame : ∀ n, n < st.ids.length → st'.tbl (nm n) = st.tbl (nm n)
  only : ∀ l, st'.tbl l ≠ st.tbl l → ∃ n, n < st'.ids.length ∧ l = nm n

theorem nameIn_append {ids e : List K} {k : K} (h : k ∈ ids) :
    nameIn nm (ids ++ e) k = nameIn nm ids k := by
  simp [nameIn, List.idxOf_append_of_mem h]

theorem nameIn_id {ids : List K} {k : K} (h : k ∈ ids) :
    ∃ h : nameIn (fun n : ℕ => n) ids k < ids.length, ids[nameIn (fun n : ℕ => n) ids k] = k :=
  ⟨List.idxOf_lt_length_of_mem h, List.getElem_idxOf _⟩

theorem nameIn_getElem {ids : List K} (hn : ids.Nodup) (n : ℕ) (h : n < ids.length) :
    nameIn (fun n : ℕ => n) ids ids[n] = n := List.Nodup.idxOf_getElem hn n h

theorem nameIn_head (k : K) (e : List K) : nameIn (fun n : ℕ => n) (k :: e) k = 0 :=
  List.idxOf_cons_self

variable {nm}

theorem Post.refl {src : K → Option (Obj K)} {D : Finset K} {st : St K L}
    (hn : st.ids.Nodup) (hs : ∀ k ∈ st.ids, k ∈ D) : Post nm src D st st :=
  ⟨⟨[], by simp⟩, hn, hs, fun n h h' => absurd h (by omega), fun _ _ => rfl,
    fun _ h => absurd rfl h⟩

theorem Post.trans {src : K → Option (Obj K)} {D : Finset K} {s1 s2 s3 : St K L}
    (h1 : Post nm src D s1 s2) (h2 : Post nm src D s2 s3) : Post nm src D s1 s3 := by
  obtain ⟨e1, he1⟩ := h1.ext
  obtain ⟨e2, he2⟩ := h2.ext
  have hl1 : s2.ids.length = s1.ids.length + e1.length := by rw [he1]; simp
  refine ⟨⟨e1 ++ e2, by rw [he2, he1, List.append_assoc]⟩, h2.nodup, h2.sub, ?_, ?_, ?_⟩
  · intro n hn hle
    by_cases hlt : n < s2.ids.length
    · obtain ⟨s, ha, hb, hc⟩ := h1.fresh n hlt hle
      refine ⟨s, ?_, ?_, ?_⟩
      · have : s3.ids[n] = s2.ids[n] := by
          simp only [he2]; rw [List.getElem_append_left hlt]
        rw [this]; exact ha
      · rw [h2.frame n hlt, hb]
        congr 1
        apply Obj.map_congr
        intro k hk
        rw [he2, nameIn_append nm (hc k hk)]
      · intro k hk
        rw [he2]; exact List.mem_append_left _ (hc k hk)
    · exact h2.fresh n hn (by omega)
  · intro n hn
    rw [h2.frame n (by omega), h1.frame n hn]
  · intro l hl
    by_cases h : s3.tbl l = s2.tbl l
    · obtain ⟨n, hn, e⟩ := h1.only l (by rwa [← h])
      exact ⟨n, by rw [he2]; simp; omega, e⟩
    · exact h2.only l h

/-- The recursive call on an already claimed object `k` succeeds and is correct. -/
def RecOk (nm : ℕ → L) (src : K → Option (Obj K)) (D : Finset K) (bound : ℕ)
    (rec : K → St K L → Option (Obj L × St K L)) : Prop :=
  ∀ k st, st.ids.Nodup → (∀ x ∈ st.ids, x ∈ D) → k ∈ D → D.card < bound + st.ids.length →
    ∃ s st', src k = some s ∧ rec k st = some (s.map (nameIn nm st'.ids), st') ∧
      Post nm src D st st' ∧ ∀ x ∈ s.keys, x ∈ st'.ids

theorem visitRef_ok {src : K → Option (Obj K)} {D : Finset K} {b : ℕ}
    {rec : K → St K L → Option (Obj L × St K L)} (hinj : Function.Injective nm)
    (hrec : RecOk nm src D b rec) (k : K) (st : St K L) (hn : st.ids.Nodup)
    (hs : ∀ x ∈ st.ids, x ∈ D) (hk : k ∈ D) (hb : D.card < b + 1 + st.ids.length) :
    ∃ st', visitRef nm rec k st = some (nameIn nm st'.ids k, st') ∧ Post nm src D st st' ∧
      k ∈ st'.ids := by
  unfold visitRef
  by_cases hmem : k ∈ st.ids
  · exact ⟨st, by simp [hmem, nameIn], Post.refl hn hs, hmem⟩
  · simp only [hmem, if_false]
    have hn1 : (st.ids ++ [k]).Nodup := by
      rw [List.nodup_append]
      exact ⟨hn, by simp, by intro a ha b hb; rw [List.mem_singleton] at hb; subst hb
                             intro h; subst h; exact hmem ha⟩
    have hs1 : ∀ x ∈ st.ids ++ [k], x ∈ D := by
      intro x hx
      rcases List.mem_append.1 hx with h | h
      · exact hs x h
      · rw [List.mem_singleton.1 h]; exact hk
    obtain ⟨s, st', hsrc, hr, hp, hkeys⟩ := hrec k ⟨st.ids ++ [k], st.tbl⟩ hn1 hs1 hk (by simp; omega)
    obtain ⟨e, he⟩ := hp.ext
    have hidx : st'.ids.idxOf k = st.ids.length := by
      rw [he, List.append_assoc, List.idxOf_append_of_notMem hmem]
      simp
    have hkm : k ∈ st'.ids := by rw [he]; simp
    refine ⟨⟨st'.ids, Function.update st'.tbl (nm st.ids.length)
      (some (s.map (nameIn nm st'.ids)))⟩, ?_, ?_, hkm⟩
    · rw [hr]; simp [nameIn, hidx]
    · refine ⟨⟨[k] ++ e, by simp [he]⟩, hp.nodup, hp.sub, ?_, ?_, ?_⟩
      · intro n hn' hle
        by_cases hEq : n = st.ids.length
        · subst hEq
          refine ⟨s, ?_, by simp, hkeys⟩
          have : st'.ids[st.ids.length] = k := by
            simp only [he]
            rw [List.getElem_append_left (by simp)]
            simp
          simp only [this]; exact hsrc
        · obtain ⟨s', ha, hb', hc⟩ := hp.fresh n hn' (by simp; omega)
          refine ⟨s', ha, ?_, hc⟩
          have hne : nm n ≠ nm st.ids.length := fun h => hEq (hinj h)
          dsimp only
          rw [Function.update_of_ne hne]
          exact hb'
      · intro n hn'
        have hne : nm n ≠ nm st.ids.length := fun h => by have := hinj h; omega
        dsimp only
        rw [Function.update_of_ne hne]
        exact hp.frame n (by simp; omega)
      · intro l hl
        by_cases h : l = nm st.ids.length
        · exact ⟨st.ids.length, by simp only [he]; simp, h⟩
        · dsimp only at hl
          rw [Function.update_of_ne h] at hl
          exact hp.only l hl

theorem visitList_ok {src : K → Option (Obj K)} {D : Finset K} {b : ℕ}
    {rec : K → St K L → Option (Obj L × St K L)} (hinj : Function.Injective nm)
    (hrec : RecOk nm src D b rec) (ks : List K) : ∀ (st : St K L), st.ids.Nodup →
    (∀ x ∈ st.ids, x ∈ D) → (∀ k ∈ ks, k ∈ D) → D.card < b + 1 + st.ids.length →
    ∃ st', visitList nm rec ks st = some (ks.map (nameIn nm st'.ids), st') ∧ Post nm src D st st' ∧
      ∀ k ∈ ks, k ∈ st'.ids := by
  induction ks with
  | nil => intro st hn hs _ _; exact ⟨st, rfl, Post.refl hn hs, by simp⟩
  | cons k ks ih =>
    intro st hn hs hk hb
    obtain ⟨st1, h1, p1, m1⟩ := visitRef_ok hinj hrec k st hn hs (hk k (by simp)) hb
    obtain ⟨e1, he1⟩ := p1.ext
    obtain ⟨st2, h2, p2, m2⟩ := ih st1 p1.nodup p1.sub (fun x hx => hk x (by simp [hx]))
      (by rw [he1]; simp; omega)
    obtain ⟨e2, he2⟩ := p2.ext
    refine ⟨st2, ?_, p1.trans p2, ?_⟩
    · simp only [visitList, h1, h2, List.map_cons]
      rw [he2, nameIn_append nm m1]
    · intro x hx
      rcases List.mem_cons.1 hx with h | h
      · subst h; rw [he2]; exact List.mem_append_left _ m1
      · exact m2 x h

theorem visitVal_ok {src : K → Option (Obj K)} {D : Finset K} {b : ℕ}
    {rec : K → St K L → Option (Obj L × St K L)} (hinj : Function.Injective nm)
    (hrec : RecOk nm src D b rec) (v : Val K) (st : St K L) (hn : st.ids.Nodup)
    (hs : ∀ x ∈ st.ids, x ∈ D) (hk : ∀ k ∈ v.keys, k ∈ D) (hb : D.card < b + 1 + st.ids.length) :
    ∃ st', visitVal nm rec v st = some (v.map (nameIn nm st'.ids), st') ∧ Post nm src D st st' ∧
      ∀ k ∈ v.keys, k ∈ st'.ids := by
  cases v with
  | str s => exact ⟨st, rfl, Post.refl hn hs, by simp [Val.keys]⟩
  | prim p => exact ⟨st, rfl, Post.refl hn hs, by simp [Val.keys]⟩
  | data p => exact ⟨st, rfl, Post.refl hn hs, by simp [Val.keys]⟩
  | ref k =>
    obtain ⟨st1, h1, p1, m1⟩ := visitRef_ok hinj hrec k st hn hs (hk k (by simp [Val.keys])) hb
    exact ⟨st1, by simp [visitVal, h1, Val.map], p1, by simpa [Val.keys] using m1⟩
  | refs l =>
    obtain ⟨st1, h1, p1, m1⟩ := visitList_ok hinj hrec l st hn hs hk hb
    exact ⟨st1, by simp [visitVal, h1, Val.map], p1, m1⟩
  | dict l =>
    obtain ⟨st1, h1, p1, m1⟩ := visitList_ok hinj hrec (l.map Prod.snd) st hn hs hk hb
    refine ⟨st1, ?_, p1, m1⟩
    simp only [visitVal, h1, Val.map, Option.map_some, Option.some.injEq, Prod.mk.injEq, and_true,
      Val.dict.injEq, List.map_map]
    clear h1 hk m1
    induction l with
    | nil => rfl
    | cons e l ih => simp [ih]

theorem visitFields_ok {src : K → Option (Obj K)} {D : Finset K} {b : ℕ}
    {rec : K → St K L → Option (Obj L × St K L)} (hinj : Function.Injective nm)
    (hrec : RecOk nm src D b rec) (fs : List (Str × Val K)) : ∀ (st : St K L), st.ids.Nodup →
    (∀ x ∈ st.ids, x ∈ D) → (∀ e ∈ fs, ∀ k ∈ e.2.keys, k ∈ D) → D.card < b + 1 + st.ids.length →
    ∃ st', visitFields nm rec fs st
        = some (fs.map (fun e => (e.1, e.2.map (nameIn nm st'.ids))), st') ∧ Post nm src D st st' ∧
      ∀ e ∈ fs, ∀ k ∈ e.2.keys, k ∈ st'.ids := by
  induction fs with
  | nil => intro st hn hs _ _; exact ⟨st, rfl, Post.refl hn hs, by simp⟩
  | cons f fs ih =>
    intro st hn hs hk hb
    obtain ⟨st1, h1, p1, m1⟩ := visitVal_ok hinj hrec f.2 st hn hs (hk f (by simp)) hb
    obtain ⟨e1, he1⟩ := p1.ext
    obtain ⟨st2, h2, p2, m2⟩ := ih st1 p1.nodup p1.sub (fun x hx => hk x (by simp [hx]))
      (by rw [he1]; simp; omega)
    obtain ⟨e2, he2⟩ := p2.ext
    refine ⟨st2, ?_, p1.trans p2, ?_⟩
    · simp only [visitFields, h1, h2, List.map_cons]
      rw [Val.map_congr f.2 (f := nameIn nm st1.ids) (g := nameIn nm st2.ids)]
      intro k hkk
      rw [he2, nameIn_append nm (m1 k hkk)]
    · intro x hx k hkk
      rcases List.mem_cons.1 hx with h | h
      · subst h; rw [he2]; exact List.mem_append_left _ (m1 k hkk)
      · exact m2 x h k hkk

theorem visit_ok {src : K → Option (Obj K)} {D : Finset K} (hinj : Function.Injective nm)
    (hD : ∀ k ∈ D, ∃ s, src k = some s ∧ ∀ x ∈ s.keys, x ∈ D) (fuel : ℕ) :
    RecOk nm src D fuel (visit nm src fuel) := by
  induction fuel with
  | zero =>
    intro k st hn hs hk hb
    exfalso
    have : st.ids.length ≤ D.card := by
      rw [← List.toFinset_card_of_nodup hn]
      exact Finset.card_le_card (fun x hx => hs x (List.mem_toFinset.1 hx))
    omega
  | succ f ih =>
    intro k st hn hs hk hb
    obtain ⟨s, hsrc, hkeys⟩ := hD k hk
    obtain ⟨st', h1, p1, m1⟩ := visitFields_ok hinj ih s.fields st hn hs
      (fun e he x hx => hkeys x (List.mem_flatMap.2 ⟨e, he, hx⟩)) (by omega)
    refine ⟨s, st', hsrc, ?_, p1, ?_⟩
    · simp [visit, hsrc, h1, Obj.map]
    · intro x hx
      obtain ⟨e, he, hx'⟩ := List.mem_flatMap.1 hx
      exact m1 e he x hx'

/-- The walk from `root` over a closed finite set `D` succeeds; every claimed object has its renamed
copy in the table, and all references stay among the claimed objects. -/
theorem walk_ok {src : K → Option (Obj K)} {D : Finset K} (hinj : Function.Injective nm)
    (hD : ∀ k ∈ D, ∃ s, src k = some s ∧ ∀ x ∈ s.keys, x ∈ D) (fuel : ℕ) (root : K)
    (hroot : root ∈ D) (hf : D.card ≤ fuel) :
    ∃ st : St K L, walk nm src fuel root = some st ∧ (∃ e, st.ids = root :: e) ∧ st.ids.Nodup ∧
      (∀ k ∈ st.ids, k ∈ D) ∧
      (∀ n, (h : n < st.ids.length) → ∃ s, src (st.ids[n]) = some s ∧
        st.tbl (nm n) = some (s.map (nameIn nm st.ids)) ∧ ∀ k ∈ s.keys, k ∈ st.ids) ∧
      ∀ l, st.tbl l ≠ none → ∃ n, n < st.ids.length ∧ l = nm n := by
  obtain ⟨s, st', hsrc, hr, hp, hkeys⟩ := visit_ok (nm := nm) hinj hD fuel root
    ⟨[root], fun _ => none⟩ (by simp) (by simpa using hroot) hroot (by simp; omega)
  obtain ⟨e, he⟩ := hp.ext
  refine ⟨⟨st'.ids, Function.update st'.tbl (nm 0) (some (s.map (nameIn nm st'.ids)))⟩,
    by simp only [walk, hr], ⟨e, by simpa using he⟩, hp.nodup, hp.sub, ?_, ?_⟩
  · intro n hn
    by_cases h0 : n = 0
    · subst h0
      refine ⟨s, ?_, by simp, hkeys⟩
      have : st'.ids[0] = root := by simp only [he]; simp
      simp only [this]; exact hsrc
    · obtain ⟨s', ha, hb, hc⟩ := hp.fresh n hn (by simp; omega)
      refine ⟨s', ha, ?_, hc⟩
      have hne : nm n ≠ nm 0 := fun h => h0 (hinj h)
      dsimp only
      rw [Function.update_of_ne hne]
      exact hb
  · intro l hl
    by_cases h : l = nm 0
    · exact ⟨0, by simp only [he]; simp, h⟩
    · dsimp only at hl
      rw [Function.update_of_ne h] at hl
      exact hp.only l hl

end Walk

end Verif.Serialize
