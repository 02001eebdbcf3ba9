import Mathlib.Data.List.Basic
import Mathlib.Data.List.Infix
import Mathlib.Tactic.Common

/-!
# Group assignment strings (`thermo/group_contribution/group_contribution_base.py` 100-166)

C17: converting an assignment dictionary to a string and back gives the same dictionary.

Strings are lists of characters. Dictionaries are lists of pairs in insertion order with distinct keys.
`int` is modelled on decimal digits with an optional leading minus sign (Python's `int` also accepts
surrounding blanks, a plus sign and underscores, which `str` of an integer never produces).
-/

namespace Verif.GroupString

abbrev Str := List Char

/-- `str(z)` of an integer, as in the f-string of 129. -/
def intStr : ℤ → Str
  | .ofNat n => Nat.toDigits 10 n
  | .negSucc n => '-' :: Nat.toDigits 10 (n + 1)

/-- A nonempty run of digits. -/
def parseNat (s : Str) : Option ℕ :=
  if s ≠ [] ∧ s.all Char.isDigit then some (Nat.ofDigitChars 10 s 0) else none

/-- `int(s)`; `none` is `ValueError`. -/
def parseInt : Str → Option ℤ
  | '-' :: s => (parseNat s).map fun n => -(n : ℤ)
  | s => (parseNat s).map fun n => (n : ℤ)

/-- `sep.join(elements)`. -/
def join (sep : Str) : List Str → Str
  | [] => []
  | [x] => x
  | x :: y :: l => x ++ sep ++ join sep (y :: l)

/-- The scan of `str.split(sep)`: leftmost, non-overlapping. -/
def splitGo (sep : Str) (hs : sep ≠ []) (acc : Str) (s : Str) : List Str :=
  if _h : sep.isPrefixOf s = true then
    if _hn : s = [] then [acc.reverse]
    else acc.reverse :: splitGo sep hs [] (s.drop sep.length)
  else match s with
    | [] => [acc.reverse]
    | c :: s' => splitGo sep hs (c :: acc) s'
  termination_by s.length
  decreasing_by
    · have h1 : 0 < sep.length := List.length_pos_iff.2 hs
      have h2 : 0 < s.length := List.length_pos_iff.2 _hn
      simp only [List.length_drop]; omega
    · simp

/-- `s.split(sep)` (163, 164); `none` is the `ValueError` for an empty separator. -/
def split (sep s : Str) : Option (List Str) :=
  if h : sep ≠ [] then some (splitGo sep h [] s) else none

/-- `d[k] = v`. -/
def setItem (d : List (ℤ × ℤ)) (k v : ℤ) : List (ℤ × ℤ) :=
  if d.any (·.1 = k) then d.map fun p => if p.1 = k then (k, v) else p else d ++ [(k, v)]

/-- `group_assignment_to_str` (127-130). -/
def toStr (counts : List (ℤ × ℤ)) (pairSep kvSep : Str) : Str :=
  join pairSep (counts.map fun p => intStr p.1 ++ kvSep ++ intStr p.2)

/-- One round of the loop (164-165). -/
def addGroup (kvSep : Str) (groups : List (ℤ × ℤ)) (group : Str) : Option (List (ℤ × ℤ)) :=
  match split kvSep group with
  | some [k, v] => do
    let k ← parseInt k
    let v ← parseInt v
    pure (setItem groups k v)
  | _ => none

/-- `str_group_assignment_to_dict` (160-166); `none` is an exception. -/
def ofStr (counts : Str) (pairSep kvSep : Str) : Option (List (ℤ × ℤ)) :=
  if counts = [] then some []
  else do
    let parts ← split pairSep counts
    parts.foldlM (addGroup kvSep) []

/-! ## Specification -/

/-- Separators that can be told from the numbers and from each other. -/
structure Admissible (pairSep kvSep : Str) : Prop where
  pair_ne : pairSep ≠ []
  kv_ne : kvSep ≠ []
  pair_chars : ∀ c ∈ pairSep, c.isDigit = false ∧ c ≠ '-'
  kv_chars : ∀ c ∈ kvSep, c.isDigit = false ∧ c ≠ '-'
  not_infix : ¬ pairSep <:+: kvSep

/-- Characters of numbers. -/
def NumChar (c : Char) : Prop := c.isDigit = true ∨ c = '-'

theorem intStr_chars (z : ℤ) : ∀ c ∈ intStr z, NumChar c := by
  intro c hc
  cases z with
  | ofNat n => exact .inl (Nat.isDigit_of_mem_toDigits (by decide) (by decide) hc)
  | negSucc n =>
    simp only [intStr, List.mem_cons] at hc
    rcases hc with h | h
    · exact .inr h
    · exact .inl (Nat.isDigit_of_mem_toDigits (by decide) (by decide) h)

theorem intStr_ne_nil (z : ℤ) : intStr z ≠ [] := by
  cases z with
  | ofNat n => exact Nat.toDigits_ne_nil
  | negSucc n => simp [intStr]

theorem parseNat_toDigits (n : ℕ) : parseNat (Nat.toDigits 10 n) = some n := by
  unfold parseNat
  rw [if_pos ⟨Nat.toDigits_ne_nil, List.all_eq_true.2 fun c hc =>
    Nat.isDigit_of_mem_toDigits (by decide) (by decide) hc⟩, Nat.ofDigitChars_ten_toDigits]

theorem parseInt_intStr (z : ℤ) : parseInt (intStr z) = some z := by
  cases z with
  | negSucc n =>
    simp only [intStr, parseInt, parseNat_toDigits, Option.map_some]
    rfl
  | ofNat n =>
    have h : ∀ s, intStr (.ofNat n) ≠ '-' :: s := by
      intro s hs
      have : ('-' : Char).isDigit = true :=
        Nat.isDigit_of_mem_toDigits (b := 10) (n := n) (by decide) (by decide)
          (by rw [show Nat.toDigits 10 n = '-' :: s from hs]; exact List.mem_cons_self ..)
      exact absurd this (by decide)
    have : parseInt (intStr (.ofNat n)) = (parseNat (intStr (.ofNat n))).map fun n => (n : ℤ) := by
      unfold parseInt
      split
      · rename_i s heq
        exact absurd heq (h s)
      · rfl
    rw [this]
    simp only [intStr, parseNat_toDigits, Option.map_some]
    rfl

/-- A stretch `t` in which `sep` does not begin is copied. -/
theorem splitGo_skip (sep : Str) (hs : sep ≠ []) (t : Str) :
    ∀ (acc rest : Str), (∀ a b, t = a ++ b → b ≠ [] → ¬ sep <+: b ++ rest) →
      splitGo sep hs acc (t ++ rest) = splitGo sep hs (t.reverse ++ acc) rest := by
  induction t with
  | nil => intro acc rest _; rfl
  | cons c t ih =>
    intro acc rest h
    rw [splitGo]
    have hno : ¬ sep.isPrefixOf (c :: t ++ rest) = true := by
      rw [List.isPrefixOf_iff_prefix]
      exact h [] (c :: t) rfl (by simp)
    rw [dif_neg hno]
    simp only [List.cons_append]
    rw [ih]
    · simp
    · intro a b hab hb
      exact h (c :: a) b (by rw [hab]; rfl) hb

theorem splitGo_sep (sep : Str) (hs : sep ≠ []) (acc rest : Str) :
    splitGo sep hs acc (sep ++ rest) = acc.reverse :: splitGo sep hs [] rest := by
  rw [splitGo]
  have h1 : sep.isPrefixOf (sep ++ rest) = true :=
    List.isPrefixOf_iff_prefix.2 (List.prefix_append sep rest)
  rw [dif_pos h1, dif_neg (by simp [hs])]
  simp

theorem splitGo_nil (sep : Str) (hs : sep ≠ []) (acc : Str) :
    splitGo sep hs acc [] = [acc.reverse] := by
  rw [splitGo]
  have h1 : ¬ sep.isPrefixOf ([] : Str) = true := by
    rw [List.isPrefixOf_iff_prefix, List.prefix_nil]; exact hs
  rw [dif_neg h1]

/-- `sep` does not begin inside a run of number characters. -/
theorem no_prefix_num {sep : Str} (hs : sep ≠ []) (hc : ∀ c ∈ sep, c.isDigit = false ∧ c ≠ '-')
    {t rest : Str} (ht : ∀ c ∈ t, NumChar c) :
    ∀ a b, t = a ++ b → b ≠ [] → ¬ sep <+: b ++ rest := by
  intro a b hab hb hp
  cases sep with
  | nil => exact hs rfl
  | cons s sep =>
    cases b with
    | nil => exact hb rfl
    | cons d b =>
      have hsd : s = d := (List.cons_prefix_cons.1 hp).1
      have h1 := hc s (List.mem_cons_self ..)
      have h2 := ht d (by rw [hab]; simp)
      rw [← hsd] at h2
      rcases h2 with h | h
      · rw [h] at h1; exact absurd h1.1 (by simp)
      · exact h1.2 h

/-- `sep` does not begin inside another separator that is followed by a number character. -/
theorem no_prefix_sep {sep kv : Str} (hc : ∀ c ∈ sep, c.isDigit = false ∧ c ≠ '-')
    (hi : ¬ sep <:+: kv) {d : Char} (hd : NumChar d) {rest : Str} :
    ∀ a b, kv = a ++ b → b ≠ [] → ¬ sep <+: b ++ (d :: rest) := by
  intro a b hab _ hp
  rcases List.prefix_or_prefix_of_prefix hp (List.prefix_append b _) with h | ⟨r, h⟩
  · exact hi (h.isInfix.trans (by rw [hab]; exact (List.suffix_append a b).isInfix))
  · subst h
    have hr := (List.prefix_append_right_inj b).1 hp
    cases r with
    | nil =>
      refine hi ?_
      rw [List.append_nil, hab]
      exact (List.suffix_append a b).isInfix
    | cons x r =>
      have hx : x = d := (List.cons_prefix_cons.1 hr).1
      have := hc x (by simp)
      rw [hx] at this
      rcases hd with h | h
      · rw [h] at this; exact absurd this.1 (by simp)
      · exact this.2 h

/-- One `key:value` piece splits at the key-value separator. -/
theorem split_kv {pairSep kvSep : Str} (ha : Admissible pairSep kvSep) (k v : ℤ) :
    split kvSep (intStr k ++ kvSep ++ intStr v) = some [intStr k, intStr v] := by
  unfold split
  rw [dif_pos ha.kv_ne]
  congr 1
  rw [List.append_assoc, splitGo_skip kvSep ha.kv_ne (intStr k) [] _
    (no_prefix_num ha.kv_ne ha.kv_chars (intStr_chars k)), splitGo_sep]
  have h := splitGo_skip kvSep ha.kv_ne (intStr v) [] []
    (no_prefix_num ha.kv_ne ha.kv_chars (intStr_chars v))
  simp only [List.append_nil] at h
  rw [h, splitGo_nil]
  simp

/-- The piece for one group. -/
def piece (kvSep : Str) (p : ℤ × ℤ) : Str := intStr p.1 ++ kvSep ++ intStr p.2

theorem head_num (z : ℤ) (rest : Str) : ∃ d r, intStr z ++ rest = d :: r ∧ NumChar d := by
  cases h : intStr z with
  | nil => exact absurd h (intStr_ne_nil z)
  | cons d r => exact ⟨d, r ++ rest, rfl, intStr_chars z d (by rw [h]; exact List.mem_cons_self ..)⟩

/-- The pair separator does not begin inside a piece. -/
theorem splitGo_piece {pairSep kvSep : Str} (ha : Admissible pairSep kvSep) (p : ℤ × ℤ)
    (acc rest : Str) :
    splitGo pairSep ha.pair_ne acc (piece kvSep p ++ rest)
      = splitGo pairSep ha.pair_ne ((piece kvSep p).reverse ++ acc) rest := by
  unfold piece
  rw [List.append_assoc, List.append_assoc, splitGo_skip pairSep ha.pair_ne (intStr p.1) acc _
    (no_prefix_num ha.pair_ne ha.pair_chars (intStr_chars p.1))]
  obtain ⟨d, r, hd, hn⟩ := head_num p.2 rest
  rw [hd, splitGo_skip pairSep ha.pair_ne kvSep _ _ (no_prefix_sep ha.pair_chars ha.not_infix hn), ← hd,
    splitGo_skip pairSep ha.pair_ne (intStr p.2) _ _
    (no_prefix_num ha.pair_ne ha.pair_chars (intStr_chars p.2))]
  simp

theorem splitGo_join {pairSep kvSep : Str} (ha : Admissible pairSep kvSep) (p : ℤ × ℤ)
    (l : List (ℤ × ℤ)) :
    splitGo pairSep ha.pair_ne [] (join pairSep ((p :: l).map (piece kvSep)))
      = (p :: l).map (piece kvSep) := by
  induction l generalizing p with
  | nil =>
    simp only [List.map_cons, List.map_nil, join]
    have h := splitGo_piece ha p [] []
    simp only [List.append_nil] at h
    rw [h, splitGo_nil, List.reverse_reverse]
  | cons q l ih =>
    simp only [List.map_cons, join]
    rw [List.append_assoc, splitGo_piece ha, splitGo_sep]
    have := ih q
    simp only [List.map_cons] at this
    rw [this]
    simp

theorem addGroup_piece {pairSep kvSep : Str} (ha : Admissible pairSep kvSep) (d : List (ℤ × ℤ))
    (p : ℤ × ℤ) : addGroup kvSep d (piece kvSep p) = some (setItem d p.1 p.2) := by
  unfold addGroup piece
  rw [split_kv ha]
  simp [parseInt_intStr]

theorem fold_pieces {pairSep kvSep : Str} (ha : Admissible pairSep kvSep) (l : List (ℤ × ℤ)) :
    ∀ d : List (ℤ × ℤ), ((d ++ l).map Prod.fst).Nodup →
      (l.map (piece kvSep)).foldlM (addGroup kvSep) d = some (d ++ l) := by
  induction l with
  | nil => intro d _; simp
  | cons p l ih =>
    intro d hd
    simp only [List.map_cons, List.foldlM_cons, addGroup_piece ha]
    have hnew : d.any (·.1 = p.1) = false := by
      rw [List.any_eq_false]
      intro q hq hqp
      rw [List.map_append, List.nodup_append] at hd
      exact hd.2.2 q.1 (List.mem_map_of_mem hq) p.1 (by simp) (by simpa using hqp)
    have hset : setItem d p.1 p.2 = d ++ [p] := by
      unfold setItem
      rw [hnew]
      rfl
    rw [hset]
    have := ih (d ++ [p]) (by simpa using hd)
    simpa using this

/-- **C17.** For every dictionary and every admissible pair of separators the string converts back to
the dictionary, in the same order. -/
theorem C17_round_trip (d : List (ℤ × ℤ)) (pairSep kvSep : Str) (hd : (d.map Prod.fst).Nodup)
    (ha : Admissible pairSep kvSep) : ofStr (toStr d pairSep kvSep) pairSep kvSep = some d := by
  cases d with
  | nil => rfl
  | cons p l =>
    have hne : toStr (p :: l) pairSep kvSep ≠ [] := by
      intro h
      obtain ⟨c, r, hc, _⟩ := head_num p.1 (kvSep ++ intStr p.2)
      have : toStr (p :: l) pairSep kvSep = c :: r ∨ ∃ t, toStr (p :: l) pairSep kvSep = c :: t := by
        cases l with
        | nil => left; simp only [toStr, List.map_cons, List.map_nil, join]; rw [List.append_assoc, hc]
        | cons q l =>
          right
          refine ⟨r ++ (pairSep ++ join pairSep ((q :: l).map (piece kvSep))), ?_⟩
          simp only [toStr, List.map_cons, join]
          rw [List.append_assoc (intStr p.1), hc, List.append_assoc]
          rfl
      rcases this with h' | ⟨t, h'⟩
      · rw [h] at h'; exact absurd h' (by simp)
      · rw [h] at h'; exact absurd h' (by simp)
    unfold ofStr
    rw [if_neg hne]
    have hs : split pairSep (toStr (p :: l) pairSep kvSep) = some ((p :: l).map (piece kvSep)) := by
      unfold split
      rw [dif_pos ha.pair_ne]
      congr 1
      exact splitGo_join ha p l
    rw [hs]
    have := fold_pieces ha (p :: l) [] (by simpa using hd)
    simpa using this

theorem setItem_lookup (d : List (ℤ × ℤ)) (k v k' : ℤ) :
    (setItem d k v).lookup k' = if k' = k then some v else d.lookup k' := by
  have hmap : ∀ d : List (ℤ × ℤ), (d.map fun p => if p.1 = k then (k, v) else p).lookup k'
      = if k' = k ∧ d.any (·.1 = k) = true then some v else d.lookup k' := by
    intro d
    induction d with
    | nil => simp
    | cons p d ih =>
      obtain ⟨a, b⟩ := p
      by_cases ha : a = k
      · subst ha
        by_cases hk : k' = a
        · subst hk; simp
        · simp [List.lookup_cons, hk, ih, beq_eq_false_iff_ne.2 hk]
      · by_cases hk : k' = k
        · subst hk
          have h1 : (k' == a) = false := beq_eq_false_iff_ne.2 fun h => ha h.symm
          simp only [List.map_cons, if_neg ha, List.lookup_cons, h1, ih, List.any_cons, decide_eq_false ha, Bool.false_or, true_and]
        · simp only [List.map_cons, if_neg ha, List.lookup_cons, ih, hk, false_and, if_false]
  unfold setItem
  by_cases h : d.any (·.1 = k) = true
  · rw [if_pos h, hmap]
    simp [h]
  · rw [if_neg h]
    rw [Bool.not_eq_true, List.any_eq_false] at h
    induction d with
    | nil =>
      by_cases hk : k' = k
      · simp [hk, List.lookup_cons]
      · have : (k' == k) = false := beq_eq_false_iff_ne.2 hk
        simp [hk, List.lookup_cons, this]
    | cons p d ih =>
      have hp : p.1 ≠ k := by simpa using h p (by simp)
      have ih' := ih fun q hq => h q (by simp [hq])
      obtain ⟨a, b⟩ := p
      by_cases hk : k' = a
      · subst hk; simp [List.lookup_cons, hp]
      · simp only [List.cons_append, List.lookup_cons, beq_eq_false_iff_ne.2 hk, ih']

/-- Keys stay distinct. -/
theorem setItem_nodup (d : List (ℤ × ℤ)) (k v : ℤ) (h : (d.map Prod.fst).Nodup) : ((setItem d k v).map Prod.fst).Nodup := by
  unfold setItem
  by_cases hk : d.any (·.1 = k) = true
  · rw [if_pos hk]
    have : ((d.map fun p => if p.1 = k then (k, v) else p).map Prod.fst) = d.map Prod.fst := by
      rw [List.map_map]
      refine List.map_congr_left fun p _ => ?_
      by_cases hp : p.1 = k <;> simp [hp]
    rw [this]; exact h
  · rw [if_neg hk, List.map_append, List.nodup_append]
    refine ⟨h, by simp, ?_⟩
    intro x hx y hy hxy
    rw [Bool.not_eq_true, List.any_eq_false] at hk
    obtain ⟨p, hp, rfl⟩ := List.mem_map.1 hx
    simp only [List.map_cons, List.map_nil, List.mem_singleton] at hy
    exact hk p hp (by simp [hxy, hy])

/-- **C17.** A string in which a group is repeated reads as a dictionary with distinct groups in which the last count given for a group
stands. -/
theorem C17_last_wins (p : ℤ × ℤ) (l : List (ℤ × ℤ)) (pairSep kvSep : Str) (ha : Admissible pairSep kvSep)
    (hne : toStr (p :: l) pairSep kvSep ≠ []) :
    ∃ r, ofStr (toStr (p :: l) pairSep kvSep) pairSep kvSep = some r ∧ (r.map Prod.fst).Nodup
      ∧ ∀ k, r.lookup k = (p :: l).reverse.lookup k := by
  have main : ∀ (l d : List (ℤ × ℤ)), (d.map Prod.fst).Nodup → ∃ r, (l.map (piece kvSep)).foldlM (addGroup kvSep) d = some r
      ∧ (r.map Prod.fst).Nodup ∧ ∀ k, r.lookup k = (l.reverse.lookup k).or (d.lookup k) := by
    intro l
    induction l with
    | nil => intro d hd; exact ⟨d, rfl, hd, fun k => by simp⟩
    | cons q l ih =>
      intro d hd
      obtain ⟨r, h1, h2, h3⟩ := ih (setItem d q.1 q.2) (setItem_nodup d q.1 q.2 hd)
      refine ⟨r, ?_, h2, fun k => ?_⟩
      · simp only [List.map_cons, List.foldlM_cons, addGroup_piece ha]
        exact h1
      · rw [h3, setItem_lookup, List.reverse_cons, List.lookup_append, Option.or_assoc]
        congr 1
        obtain ⟨a, b⟩ := q
        by_cases hk : k = a
        · subst hk; simp [List.lookup_cons]
        · simp [List.lookup_cons, hk, beq_eq_false_iff_ne.2 hk]
  obtain ⟨r, h1, h2, h3⟩ := main (p :: l) [] (by simp)
  refine ⟨r, ?_, h2, fun k => by rw [h3]; simp⟩
  unfold ofStr
  rw [if_neg hne]
  have hs : split pairSep (toStr (p :: l) pairSep kvSep) = some ((p :: l).map (piece kvSep)) := by
    unfold split
    rw [dif_pos ha.pair_ne]
    congr 1
    exact splitGo_join ha p l
  rw [hs]
  exact h1

/-- The default separators are admissible. -/
theorem default_admissible : Admissible [','] [':'] where
  pair_ne := by simp
  kv_ne := by simp
  pair_chars := by decide
  kv_chars := by decide
  not_infix := by decide

example : ofStr (toStr [(1, 2), (15, -3)] [','] [':']) [','] [':'] = some [(1, 2), (15, -3)] :=
  C17_round_trip _ _ _ (by decide) default_admissible

example := C17_last_wins (1, 2) [(15, 3), (1, 7)] [','] [':'] default_admissible (by decide +kernel)
example : ofStr "1:2,15:3,1:7".toList [','] [':'] = some [(1, 7), (15, 3)] := by decide +kernel

/-- **C17.** The conditions on separators are needed: with a pair separator inside the key-value
separator, or one that is a digit, reading the string back fails or gives another dictionary. -/
theorem C17_separators_needed :
    ofStr (toStr [(1, 2)] [','] [',', ',']) [','] [',', ','] ≠ some [(1, 2)] ∧
    ofStr (toStr [(1, 2)] [','] ['0']) [','] ['0'] = some [(1, 2)] ∧
    ofStr (toStr [(10, 2)] [','] ['0']) [','] ['0'] ≠ some [(10, 2)] := by
  refine ⟨?_, ?_, ?_⟩ <;> decide +kernel

end Verif.GroupString
