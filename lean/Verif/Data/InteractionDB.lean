import Mathlib.Data.List.Sort
import Mathlib.Data.Rat.Defs
import Mathlib.Order.Basic
import Mathlib.Order.Lattice

/-!
# Interaction-parameter tables (`/repo/thermo/interaction_parameters.py`): C09, C47
-/

namespace Verif.InteractionDB

/-- Strings as lists of characters. -/
abbrev Str := List Char

/-- `' '.join(l)` (interaction_parameters.py 173-175, 209-211). -/
def joinSp : List Str → Str
  | [] => []
  | [a] => a
  | a :: b :: l => a ++ ' ' :: joinSp (b :: l)

variable {C : Type} [LinearOrder C] {V : Type}

/-- One table with its metadata (interaction_parameters.py 63-65, 116-117): entries by key, the
`missing` defaults and the `symmetric` flag. Parameter names are strings; a Python `dict` is a partial
function. -/
structure Table (V : Type) where
  entries : Str → Option (Str → Option V)
  missing : Str → Option V
  symmetric : Bool

/-- The key of a list of CAS numbers (172-175, 208-211). `C` are CAS numbers with the order used by
`chemicals.identifiers.sorted_CAS_key`, which returns the same numbers sorted increasingly; `txt` is
their text. -/
def key (txt : C → Str) (sym : Bool) (cas : List C) : Str :=
  if sym then joinSp ((cas.insertionSort (· ≤ ·)).map txt) else joinSp (cas.map txt)

/-- `get_ip_specific` (208-215); `none` is the `KeyError` of a parameter without default. -/
def getIp (txt : C → Str) (t : Table V) (cas : List C) (ip : Str) : Option V :=
  match (t.entries (key txt t.symmetric cas)).bind (fun e => e ip) with
  | some v => some v
  | none => t.missing ip

/-- `has_ip_specific` (172-179). -/
def hasIp (txt : C → Str) (t : Table V) (cas : List C) (ip : Str) : Bool :=
  match t.entries (key txt t.symmetric cas) with
  | none => false
  | some e => (e ip).isSome

/-- A matrix under construction; `none` is Python's `None`. -/
abbrev Mat (V : Type) := ℕ → ℕ → Option V

/-- Storing an entry. -/
def Mat.put (m : Mat V) (i j : ℕ) (v : V) : Mat V := fun a b => if a = i ∧ b = j then some v else m a b

variable [Zero V]

/-- Body of the double loop of `get_ip_symmetric_matrix` (301-307). -/
def symCell (look : ℕ → ℕ → Option V) (i j : ℕ) (m : Mat V) : Option (Mat V) :=
  if i = j then some ((m.put j i 0).put i j 0)
  else if m j i ≠ none then some m
  else
    match look i j with
    | none => none
    | some v => some ((m.put j i v).put i j v)

/-- Inner loop, columns `0 … n-1` of row `i` (300). -/
def symRow (look : ℕ → ℕ → Option V) (i : ℕ) : ℕ → Mat V → Option (Mat V)
  | 0, m => some m
  | j + 1, m => (symRow look i j m).bind (symCell look i j)

/-- Outer loop, rows `0 … n-1` (298-307). -/
def symRows (look : ℕ → ℕ → Option V) (N : ℕ) : ℕ → Option (Mat V)
  | 0 => some (fun _ _ => none)
  | i + 1 => (symRows look N i).bind (symRow look i N)

/-- `get_ip_symmetric_matrix` (269-308); `cas i` is `CASs[i]`. -/
def symMatrix (txt : C → Str) (t : Table V) (N : ℕ) (cas : ℕ → C) (ip : Str) : Option (Mat V) :=
  symRows (fun i j => getIp txt t [cas i, cas j] ip) N N

/-- Body of the double loop of `get_ip_asymmetric_matrix` (341-345). -/
def asymCell (look : ℕ → ℕ → Option V) (i j : ℕ) (m : Mat V) : Option (Mat V) :=
  if i = j then some (m.put i j 0)
  else
    match look i j with
    | none => none
    | some v => some (m.put i j v)

/-- Inner loop (340). -/
def asymRow (look : ℕ → ℕ → Option V) (i : ℕ) : ℕ → Mat V → Option (Mat V)
  | 0, m => some m
  | j + 1, m => (asymRow look i j m).bind (asymCell look i j)

/-- Outer loop (338-345). -/
def asymRows (look : ℕ → ℕ → Option V) (N : ℕ) : ℕ → Option (Mat V)
  | 0 => some (fun _ _ => none)
  | i + 1 => (asymRows look N i).bind (asymRow look i N)

/-- `get_ip_asymmetric_matrix` (310-346). -/
def asymMatrix (txt : C → Str) (t : Table V) (N : ℕ) (cas : ℕ → C) (ip : Str) : Option (Mat V) :=
  asymRows (fun i j => getIp txt t [cas i, cas j] ip) N N

/-! ## C09 -/

/-- **C09.** In a table declared symmetric the value does not depend on the order in which the CAS
numbers are given — for any number of components. -/
theorem C09_symmetric_lookup (txt : C → Str) (t : Table V) (hs : t.symmetric = true)
    (cas cas' : List C) (h : cas.Perm cas') (ip : Str) :
    getIp txt t cas ip = getIp txt t cas' ip ∧ hasIp txt t cas ip = hasIp txt t cas' ip := by
  have hk : key txt t.symmetric cas = key txt t.symmetric cas' := by
    simp only [key, hs, if_true]
    congr 2
    apply List.Perm.eq_of_pairwise (le := (· ≤ ·))
    · intro a b _ _ h1 h2; exact le_antisymm h1 h2
    · exact List.pairwise_insertionSort _ _
    · exact List.pairwise_insertionSort _ _
    · exact (List.perm_insertionSort _ _).trans (h.trans (List.perm_insertionSort _ _).symm)
  simp [getIp, hasIp, hk]

example : (([3, 7] : List ℕ)).Perm [7, 3] := by decide

/-- No collisions: the key determines the components. Specification side: CAS texts contain no space
and are distinct. -/
theorem joinSp_injective (l l' : List Str) (hl : ∀ s ∈ l, ' ' ∉ s) (hl' : ∀ s ∈ l', ' ' ∉ s)
    (hlen : l.length = l'.length) (h : joinSp l = joinSp l') : l = l' := by
  induction l generalizing l' with
  | nil => cases l' <;> simp_all
  | cons a l ih =>
    cases l' with
    | nil => simp at hlen
    | cons b l' =>
      have ha : ' ' ∉ a := hl a (by simp)
      have hb : ' ' ∉ b := hl' b (by simp)
      cases l with
      | nil =>
        cases l' with
        | nil => simpa [joinSp] using h
        | cons _ _ => simp at hlen
      | cons a2 l =>
        cases l' with
        | nil => simp at hlen
        | cons b2 l' =>
          simp only [joinSp] at h
          have key : a = b ∧ joinSp (a2 :: l) = joinSp (b2 :: l') := by
            clear ih hl hl' hlen
            induction a generalizing b with
            | nil =>
              cases b with
              | nil => simpa using h
              | cons c b => simp only [List.nil_append, List.cons_append, List.cons.injEq] at h
                            exact absurd (by rw [h.1]; simp) hb
            | cons c a iha =>
              cases b with
              | nil => simp only [List.nil_append, List.cons_append, List.cons.injEq] at h
                       exact absurd (by rw [← h.1]; simp) ha
              | cons d b =>
                simp only [List.cons_append, List.cons.injEq] at h
                have := iha b (fun hm => ha (by simp [hm])) (fun hm => hb (by simp [hm])) h.2
                exact ⟨by rw [h.1, this.1], this.2⟩
          rw [key.1, ih (b2 :: l') (fun s hs => hl s (by simp [hs])) (fun s hs => hl' s (by simp [hs]))
            (by simpa using hlen) key.2]

/-- **C09.** Different sets of components never share an entry: in a symmetric table two equally long
lists of CAS numbers have the same key only if they are permutations of each other, in an ordered
table only if they are equal. -/
theorem C09_no_key_collision (txt : C → Str) (hinj : Function.Injective txt)
    (hsp : ∀ c, ' ' ∉ txt c) (cas cas' : List C) (hlen : cas.length = cas'.length) :
    (key txt true cas = key txt true cas' → cas.Perm cas') ∧
    (key txt false cas = key txt false cas' → cas = cas') := by
  have hm : ∀ l : List C, ∀ s ∈ l.map txt, ' ' ∉ s := by
    intro l s hs
    obtain ⟨c, _, rfl⟩ := List.mem_map.1 hs
    exact hsp c
  constructor
  · intro h
    simp only [key, if_true] at h
    have := joinSp_injective _ _ (hm _) (hm _) (by simp [hlen]) h
    have heq := List.map_injective_iff.2 hinj this
    exact (List.perm_insertionSort (· ≤ ·) cas).symm.trans (heq ▸ List.perm_insertionSort (· ≤ ·) cas')
  · intro h
    simp only [key, Bool.false_eq_true, if_false] at h
    exact List.map_injective_iff.2 hinj (joinSp_injective _ _ (hm _) (hm _) (by simp [hlen]) h)

/-- The value the matrix of a symmetric table should hold: zero on the diagonal, otherwise the pairwise
lookup with its default. -/
def pairValue (txt : C → Str) (t : Table V) (cas : ℕ → C) (ip : Str) (i j : ℕ) : Option V :=
  if i = j then some 0 else getIp txt t [cas i, cas j] ip

/-- Invariant of the symmetric loops for an arbitrary lookup: entries are those of the pair in
increasing index order. -/
theorem symRows_spec (look : ℕ → ℕ → Option V) (N : ℕ)
    (hl : ∀ i j, i < N → j < N → i ≠ j → look i j ≠ none) (n : ℕ) (hn : n ≤ N) :
    ∃ m, symRows look N n = some m ∧ ∀ a b, m a b =
      if min a b < n ∧ max a b < N then
        (if a = b then some 0 else look (min a b) (max a b)) else none := by
  induction n with
  | zero => exact ⟨fun _ _ => none, rfl, by simp⟩
  | succ i ih =>
    obtain ⟨m, hm, hspec⟩ := ih (by omega)
    have inner : ∀ j, j ≤ N → ∃ m', symRow look i j m = some m' ∧ ∀ a b, m' a b =
        if (min a b < i ∧ max a b < N) ∨ (min a b = i ∧ max a b < j) then
          (if a = b then some 0 else look (min a b) (max a b)) else none := by
      intro j
      induction j with
      | zero =>
        intro _
        refine ⟨m, rfl, ?_⟩
        intro a b; rw [hspec]; simp
      | succ j ihj =>
        intro hj
        obtain ⟨m', hm', hs'⟩ := ihj (by omega)
        rcases lt_trichotomy j i with hji | hji | hji
        · -- already set by row j
          refine ⟨m', ?_, ?_⟩
          · have hset : m' j i ≠ none := by
              rw [hs', if_pos (Or.inl ⟨by omega, by omega⟩), if_neg (by omega),
                min_eq_left hji.le, max_eq_right hji.le]
              exact hl j i (by omega) (by omega) (by omega)
            simp only [symRow, hm', Option.bind_some, symCell]
            rw [if_neg (by omega), if_pos hset]
          · intro a b
            rw [hs']
            congr 1
            apply propext
            constructor
            · rintro (h | h)
              · exact Or.inl h
              · exact Or.inr ⟨h.1, by omega⟩
            · rintro (h | h)
              · exact Or.inl h
              · exfalso; omega
        · subst hji
          refine ⟨(m'.put j j 0).put j j 0, by simp [symRow, hm', symCell], ?_⟩
          intro a b
          simp only [Mat.put]
          by_cases hab : a = j ∧ b = j
          · simp [hab.1, hab.2]
          · rw [if_neg hab, if_neg hab, hs']
            congr 1
            apply propext
            constructor
            · rintro (h | h)
              · exact Or.inl h
              · exact Or.inr ⟨h.1, by omega⟩
            · rintro (h | h)
              · exact Or.inl h
              · exfalso; omega
        · obtain ⟨v, hv⟩ := Option.ne_none_iff_exists'.1 (hl i j (by omega) (by omega) (by omega))
          have hunset : m' j i = none := by
            rw [hs', if_neg]
            rintro (h | h) <;> omega
          refine ⟨(m'.put j i v).put i j v, ?_, ?_⟩
          · simp only [symRow, hm', Option.bind_some, symCell]
            rw [if_neg (by omega)]
            simp [hunset, hv]
          · intro a b
            simp only [Mat.put]
            by_cases h1 : a = i ∧ b = j
            · obtain ⟨rfl, rfl⟩ := h1
              rw [if_pos ⟨rfl, rfl⟩, if_pos (Or.inr ⟨by omega, by omega⟩), if_neg (by omega),
                min_eq_left hji.le, max_eq_right hji.le, hv]
            · by_cases h2 : a = j ∧ b = i
              · obtain ⟨rfl, rfl⟩ := h2
                rw [if_neg h1, if_pos ⟨rfl, rfl⟩, if_pos (Or.inr ⟨by omega, by omega⟩),
                  if_neg (by omega), min_eq_right hji.le, max_eq_left hji.le, hv]
              · rw [if_neg h1, if_neg h2, hs']
                congr 1
                apply propext
                constructor
                · rintro (h | h)
                  · exact Or.inl h
                  · exact Or.inr ⟨h.1, by omega⟩
                · rintro (h | h)
                  · exact Or.inl h
                  · refine Or.inr ⟨h.1, ?_⟩
                    omega
    obtain ⟨m', hm', hs'⟩ := inner N le_rfl
    refine ⟨m', by simp [symRows, hm, hm'], ?_⟩
    intro a b
    rw [hs']
    congr 1
    apply propext
    constructor
    · rintro (h | h) <;> omega
    · rintro ⟨h, h'⟩; omega

/-- **C09.** The matrix assembled from a symmetric table has zero on the diagonal and agrees, entry by
entry and on both sides of the diagonal, with the pairwise lookup (including its default for missing
pairs), for any number of components. -/
theorem C09_symmetric_matrix (txt : C → Str) (t : Table V) (hs : t.symmetric = true) (N : ℕ)
    (cas : ℕ → C) (ip : Str) (hdef : t.missing ip ≠ none) :
    ∃ m, symMatrix txt t N cas ip = some m ∧
      ∀ i j, i < N → j < N → m i j = pairValue txt t cas ip i j ∧ m i j = m j i := by
  have hl : ∀ i j, i < N → j < N → i ≠ j → getIp txt t [cas i, cas j] ip ≠ none := by
    intro i j _ _ _
    unfold getIp
    split <;> simp_all
  obtain ⟨m, hm, hspec⟩ := symRows_spec _ N hl N le_rfl
  have hv : ∀ i j, i < N → j < N → m i j = pairValue txt t cas ip i j := by
    intro i j hi hj
    rw [hspec, if_pos ⟨by omega, by omega⟩]
    unfold pairValue
    by_cases hij : i = j
    · simp [hij]
    · rw [if_neg hij, if_neg hij]
      rcases le_total i j with h | h
      · rw [min_eq_left h, max_eq_right h]
      · rw [min_eq_right h, max_eq_left h]
        exact (C09_symmetric_lookup txt t hs _ _ (List.Perm.swap _ _ _) ip).1
  refine ⟨m, hm, fun i j hi hj => ⟨hv i j hi hj, ?_⟩⟩
  rw [hspec, hspec, min_comm, max_comm]
  simp only [eq_comm]

/-- **C09.** The matrix assembled for an ordered table agrees entry by entry with the ordered lookup. -/
theorem C09_asymmetric_matrix (txt : C → Str) (t : Table V) (N : ℕ)
    (cas : ℕ → C) (ip : Str) (hdef : t.missing ip ≠ none) :
    ∃ m, asymMatrix txt t N cas ip = some m ∧
      ∀ i j, i < N → j < N → m i j = pairValue txt t cas ip i j := by
  have hl : ∀ i j, getIp txt t [cas i, cas j] ip ≠ none := by
    intro i j
    unfold getIp
    split <;> simp_all
  suffices h : ∀ n, ∃ m, asymRows (fun i j => getIp txt t [cas i, cas j] ip) N n = some m ∧
      ∀ i j, m i j = if i < n ∧ j < N then pairValue txt t cas ip i j else none by
    obtain ⟨m, hm, hspec⟩ := h N
    exact ⟨m, hm, fun i j hi hj => by rw [hspec, if_pos ⟨hi, hj⟩]⟩
  intro n
  induction n with
  | zero => exact ⟨fun _ _ => none, rfl, by simp⟩
  | succ i ih =>
    obtain ⟨m, hm, hspec⟩ := ih
    have inner : ∀ j, ∃ m', asymRow (fun i j => getIp txt t [cas i, cas j] ip) i j m = some m' ∧
        ∀ a b, m' a b = if (a < i ∧ b < N) ∨ (a = i ∧ b < j) then pairValue txt t cas ip a b
          else none := by
      intro j
      induction j with
      | zero => exact ⟨m, rfl, by intro a b; rw [hspec]; simp⟩
      | succ j ihj =>
        obtain ⟨m', hm', hs'⟩ := ihj
        obtain ⟨v, hv⟩ : ∃ v, pairValue txt t cas ip i j = some v := by
          unfold pairValue
          split_ifs
          · exact ⟨0, rfl⟩
          · exact Option.ne_none_iff_exists'.1 (hl i j)
        refine ⟨m'.put i j v, ?_, ?_⟩
        · unfold pairValue at hv
          simp only [asymRow, hm', Option.bind_some, asymCell]
          split_ifs at hv with hij
          · simp only [Option.some.injEq] at hv; simp [hij, hv]
          · simp [hij, hv]
        · intro a b
          simp only [Mat.put]
          by_cases h : a = i ∧ b = j
          · rw [if_pos h, if_pos (Or.inr ⟨h.1, by omega⟩), h.1, h.2, hv]
          · rw [if_neg h, hs']
            congr 1
            apply propext
            constructor
            · rintro (h' | h')
              · exact Or.inl h'
              · exact Or.inr ⟨h'.1, by omega⟩
            · rintro (h' | h')
              · exact Or.inl h'
              · exact Or.inr ⟨h'.1, by omega⟩
    obtain ⟨m', hm', hs'⟩ := inner N
    refine ⟨m', by simp [asymRows, hm, hm'], ?_⟩
    intro a b
    rw [hs']
    congr 1
    apply propext
    constructor
    · rintro (h | h) <;> omega
    · rintro ⟨h, h'⟩; omega

/-- A symmetric table over CAS numbers written in unary, with one stored pair. -/
def demoTable : Table ℚ :=
  { entries := fun k => if k = ['1', ' ', '1', '1'] then
      some (fun p => if p = ['k'] then some 5 else none) else none
    missing := fun p => if p = ['k'] then some 0 else none
    symmetric := true }

/-- The stored pair is found in either order and a missing pair gets the default. -/
example : getIp (fun n : ℕ => List.replicate n '1') demoTable [2, 1] ['k'] = some 5 ∧
    getIp (fun n : ℕ => List.replicate n '1') demoTable [1, 2] ['k'] = some 5 ∧
    getIp (fun n : ℕ => List.replicate n '1') demoTable [1, 3] ['k'] = some 0 ∧
    demoTable.missing ['k'] ≠ none := by
  refine ⟨by decide +kernel, by decide +kernel, by decide +kernel, by decide +kernel⟩

/-- **C09, misuse.** On an ordered table `get_ip_symmetric_matrix` does not raise; it returns for `i > j`
the value of the pair `(j, i)`, not of `(i, j)`. -/
theorem C09_symmetric_matrix_of_ordered_table (txt : C → Str) (t : Table V) (N : ℕ)
    (cas : ℕ → C) (ip : Str) (hdef : t.missing ip ≠ none) :
    ∃ m, symMatrix txt t N cas ip = some m ∧
      ∀ i j, i < j → j < N → m j i = getIp txt t [cas i, cas j] ip := by
  have hl : ∀ i j, i < N → j < N → i ≠ j → getIp txt t [cas i, cas j] ip ≠ none := by
    intro i j _ _ _
    unfold getIp
    split <;> simp_all
  obtain ⟨m, hm, hspec⟩ := symRows_spec _ N hl N le_rfl
  refine ⟨m, hm, fun i j hij hj => ?_⟩
  rw [hspec, if_pos ⟨by omega, by omega⟩, if_neg (by omega), min_eq_right hij.le, max_eq_left hij.le]

/-! ## C47: presence test and value agree -/

/-- **C47.** `has_ip_specific` answers true exactly when `get_ip_specific` returns a stored value: if it
is true the value returned is the stored one whatever the defaults are, if it is false the value is
the default. -/
theorem C47_has_iff_stored (txt : C → Str) (t : Table V) (cas : List C) (ip : Str) :
    (hasIp txt t cas ip = true → ∃ v, ∀ d, getIp txt { t with missing := d } cas ip = some v) ∧
    (hasIp txt t cas ip = false → getIp txt t cas ip = t.missing ip) := by
  unfold hasIp getIp
  constructor
  · intro h
    cases he : t.entries (key txt t.symmetric cas) with
    | none => simp [he] at h
    | some e =>
      rw [he] at h
      obtain ⟨v, hv⟩ := Option.isSome_iff_exists.1 h
      exact ⟨v, fun d => by simp [he, hv]⟩
  · intro h
    cases he : t.entries (key txt t.symmetric cas) with
    | none => simp
    | some e =>
      rw [he] at h
      simp only [Option.isSome_eq_false_iff, Option.isNone_iff_eq_none] at h
      simp [h]

end Verif.InteractionDB
