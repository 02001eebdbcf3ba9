import Mathlib.Tactic
import Mathlib.Data.List.Basic

/-!
# Arrays in saved objects (`/repo/thermo/serialize.py` 77-121, 254-262, 313-324, 344-379)

`arrays_to_lists` prepares the dictionary of a `vectorized` object for a JSON document, `naive_lists_to_arrays` turns the
lists of a loaded dictionary into arrays again. The file models both functions on all nestings of lists, tuples, sets and
dictionaries, the part of `from_json` that replaces the names of objects by the objects, and the treatment of
`option` by `as_json`.

Simplified: numbers are exact (no overflow of 64 bit integers, no infinities), `numpy.array` is modelled by its documented
rules (nested sequences of one shape, smallest common type; anything else raises, as in numpy 1.24 and later), the text numpy gives to
a number in an array of strings is a parameter, an array is its type and its nested list. Dictionaries have string keys.
-/

namespace Verif.Arrays

/-- The values without parts that a JSON document can hold (`primitive_serialization_types_no_containers`, 51). -/
inductive Leaf where
  | none
  | bool (b : Bool)
  | int (n : ℤ)
  | flt (q : ℚ)
  | str (s : String)
  deriving DecidableEq

/-- Element types of an array. -/
inductive DType where
  | bool | int | float | str | object
  deriving DecidableEq

/-- Python values: `npInt` and `npFlt` are the numpy scalars of `int_types` and `float_types` (38-41); an array has a type and
its content as nested lists. -/
inductive Val where
  | leaf (c : Leaf)
  | npInt (n : ℤ)
  | npFlt (q : ℚ)
  | list (l : List Val)
  | tup (l : List Val)
  | set (l : List Val)
  | dict (keys : List String) (vals : List Val)
  | arr (d : DType) (data : Val)

/-! ## `arrays_to_lists` (77-96) -/

mutual
/-- `arrays_to_lists` (77-96). -/
def toLists : Val → Val
  | .dict k v => .dict k (toListsAll v)
  | .tup l => .tup (toListsAll l)
  | .set l => .set l
  | .arr _ x => x
  | .npInt n => .leaf (.int n)
  | .npFlt q => .leaf (.flt q)
  | .leaf c => .leaf c
  | .list l => .list l
/-- The loops of lines 82-83 and 85. -/
def toListsAll : List Val → List Val
  | [] => []
  | v :: l => toLists v :: toListsAll l
end

/-! ## `numpy.array` -/

/-- A sequence of parts has a shape when all parts have one and the same shape. -/
def join : List (List ℕ) → Option (List ℕ)
  | [] => some [0]
  | s :: ss => if ∀ t ∈ ss, t = s then some ((ss.length + 1) :: s) else none

mutual
/-- The shape numpy finds in nested sequences. -/
def shape : Val → Option (List ℕ)
  | .leaf _ => some []
  | .npInt _ => some []
  | .npFlt _ => some []
  | .set _ => some []
  | .dict _ _ => some []
  | .arr _ x => shape x
  | .list l => (shapeAll l).bind join
  | .tup l => (shapeAll l).bind join
/-- The shapes of the parts. -/
def shapeAll : List Val → Option (List (List ℕ))
  | [] => some []
  | v :: l => (shape v).bind fun s => (shapeAll l).map fun ss => s :: ss
end

/-- The type of one element. -/
def Leaf.kind : Leaf → DType
  | .none => .object
  | .bool _ => .bool
  | .int _ => .int
  | .flt _ => .float
  | .str _ => .str

mutual
/-- The types of the elements. -/
def kinds : Val → List DType
  | .leaf c => [c.kind]
  | .npInt _ => [.int]
  | .npFlt _ => [.float]
  | .set _ => [.object]
  | .dict _ _ => [.object]
  | .arr _ x => kinds x
  | .list l => kindsAll l
  | .tup l => kindsAll l
/-- The types of the elements of all parts. -/
def kindsAll : List Val → List DType
  | [] => []
  | v :: l => kinds v ++ kindsAll l
end

/-- The common type numpy chooses; an array without elements is of floats. -/
def promote (l : List DType) : DType :=
  if l = [] then .float
  else if .object ∈ l then .object
  else if .str ∈ l then .str
  else if .float ∈ l then .float
  else if .int ∈ l then .int
  else .bool

/-- An element as a member of an array of the given type. -/
def castLeaf (text : Leaf → String) : DType → Leaf → Leaf
  | .float, .int n => .flt n
  | .float, .bool b => .flt (if b then 1 else 0)
  | .int, .bool b => .int (if b then 1 else 0)
  | .str, .str s => .str s
  | .str, c => .str (text c)
  | _, c => c

mutual
/-- The content of the array as nested lists. -/
def castVal (text : Leaf → String) (d : DType) : Val → Val
  | .leaf c => .leaf (castLeaf text d c)
  | .npInt n => .leaf (castLeaf text d (.int n))
  | .npFlt q => .leaf (castLeaf text d (.flt q))
  | .set l => .set l
  | .dict k v => .dict k v
  | .arr _ x => castVal text d x
  | .list l => .list (castAll text d l)
  | .tup l => .list (castAll text d l)
/-- The contents of all parts. -/
def castAll (text : Leaf → String) (d : DType) : List Val → List Val
  | [] => []
  | v :: l => castVal text d v :: castAll text d l
end

/-- `numpy.array`; `none` is an exception. -/
def array (text : Leaf → String) (v : Val) : Option Val :=
  (shape v).map fun _ => .arr (promote (kinds v)) (castVal text (promote (kinds v)) v)

/-- `tuple(array(v) for v in obj)` (117). -/
def arrayAll (text : Leaf → String) : List Val → Option (List Val)
  | [] => some []
  | v :: l => (array text v).bind fun a => (arrayAll text l).map fun as => a :: as

/-! ## `naive_lists_to_arrays` (99-121) -/

/-- `len` (114, 116); `none` is the `TypeError` of a value without a length. -/
def len : Val → Option ℕ
  | .leaf (.str s) => some s.length
  | .list l => some l.length
  | .tup l => some l.length
  | .set l => some l.length
  | .dict _ v => some v.length
  | .arr _ (.list l) => some l.length
  | _ => none

/-- The loop of lines 115-117: does an element with another length come before one without a length? -/
def differs (n : ℕ) : List Val → Bool
  | [] => false
  | v :: l => match len v with
    | none => false
    | some m => if m ≠ n then true else differs n l

/-- The branch for lists (110-120). -/
def fromList (text : Leaf → String) (l : List Val) : Option Val :=
  match l with
  | .list a :: b :: rest =>
    if differs a.length (b :: rest) then
      match arrayAll text l with
      | some as => some (.tup as)
      | none => array text (.list l)
    else array text (.list l)
  | _ => array text (.list l)

mutual
/-- `naive_lists_to_arrays` (99-121). -/
def fromLists (text : Leaf → String) : Val → Option Val
  | .dict k v => (fromListsAll text v).map (.dict k)
  | .tup l => (fromListsAll text l).map .tup
  | .set l => (fromListsAll text l).map .set
  | .list l => fromList text l
  | .leaf c => some (.leaf c)
  | .npInt n => some (.npInt n)
  | .npFlt q => some (.npFlt q)
  | .arr d x => some (.arr d x)
/-- The loops of lines 104-105, 107 and 109. -/
def fromListsAll (text : Leaf → String) : List Val → Option (List Val)
  | [] => some []
  | v :: l => (fromLists text v).bind fun w => (fromListsAll text l).map fun ws => w :: ws
end

/-! ## The document -/

mutual
/-- `json.loads(json.dumps(v))`: tuples come back as lists; `none` is the `TypeError` for arrays, numpy scalars and sets. -/
def document : Val → Option Val
  | .leaf c => some (.leaf c)
  | .list l => (documentAll l).map .list
  | .tup l => (documentAll l).map .list
  | .dict k v => (documentAll v).map (.dict k)
  | .npInt _ => none
  | .npFlt _ => none
  | .set _ => none
  | .arr _ _ => none
/-- All members of a container. -/
def documentAll : List Val → Option (List Val)
  | [] => some []
  | v :: l => (document v).bind fun w => (documentAll l).map fun ws => w :: ws
end

/-- A value of a `vectorized` object saved, written as text, read and loaded (313-314, 345-346). -/
def saved (text : Leaf → String) (v : Val) : Option Val := (document (toLists v)).bind (fromLists text)

/-! ## Specifications -/

mutual
/-- No array, numpy scalar or set anywhere: what the JSON text can hold. -/
def Plain : Val → Prop
  | .leaf _ => True
  | .list l => PlainAll l
  | .tup l => PlainAll l
  | .dict _ v => PlainAll v
  | .npInt _ => False
  | .npFlt _ => False
  | .set _ => False
  | .arr _ _ => False
/-- All members are plain. -/
def PlainAll : List Val → Prop
  | [] => True
  | v :: l => Plain v ∧ PlainAll l
end

mutual
/-- Arrays and numpy scalars stand only in dictionaries and tuples, not inside lists, and there is no set. -/
def OutsideLists : Val → Prop
  | .leaf _ => True
  | .npInt _ => True
  | .npFlt _ => True
  | .list l => PlainAll l
  | .tup l => OutsideListsAll l
  | .dict _ v => OutsideListsAll v
  | .set _ => False
  | .arr _ x => Plain x
/-- The same for all members. -/
def OutsideListsAll : List Val → Prop
  | [] => True
  | v :: l => OutsideLists v ∧ OutsideListsAll l
end

mutual
/-- Nested lists whose elements all have type `d`. -/
def Cells (d : DType) : Val → Prop
  | .leaf c => c.kind = d
  | .list l => CellsAll d l
  | .npInt _ => False
  | .npFlt _ => False
  | .set _ => False
  | .dict _ _ => False
  | .tup _ => False
  | .arr _ _ => False
/-- The same for all parts. -/
def CellsAll (d : DType) : List Val → Prop
  | [] => True
  | v :: l => Cells d v ∧ CellsAll d l
end

/-- An array with at least one axis, with elements of its own type; an array without elements is of floats. -/
def Proper (d : DType) (x : Val) : Prop :=
  (∃ l, x = .list l) ∧ (∃ s, shape x = some s) ∧ Cells d x ∧ (kinds x = [] → d = .float)

mutual
/-- Dictionaries of primitive values, of proper arrays and of such dictionaries. -/
def Arrayed : Val → Prop
  | .leaf _ => True
  | .arr d x => Proper d x
  | .dict _ v => ArrayedAll v
  | .list _ => False
  | .npInt _ => False
  | .npFlt _ => False
  | .set _ => False
  | .tup _ => False
/-- The same for all members. -/
def ArrayedAll : List Val → Prop
  | [] => True
  | v :: l => Arrayed v ∧ ArrayedAll l
end

/-! ## Writing -/

theorem toListsAll_eq (l : List Val) : toListsAll l = l.map toLists := by
  induction l with
  | nil => rfl
  | cons v l ih => rw [toListsAll, ih, List.map_cons]

mutual
theorem plain_iff : ∀ v : Val, Plain (toLists v) ↔ OutsideLists v
  | .leaf _ => by simp [toLists, Plain, OutsideLists]
  | .npInt _ => by simp [toLists, Plain, OutsideLists]
  | .npFlt _ => by simp [toLists, Plain, OutsideLists]
  | .list _ => by simp [toLists, Plain, OutsideLists]
  | .tup l => by simpa [toLists, Plain, OutsideLists] using plainAll_iff l
  | .set _ => by simp [toLists, Plain, OutsideLists]
  | .dict _ v => by simpa [toLists, Plain, OutsideLists] using plainAll_iff v
  | .arr _ _ => by simp [toLists, OutsideLists]
theorem plainAll_iff : ∀ l : List Val, PlainAll (toListsAll l) ↔ OutsideListsAll l
  | [] => by simp [toListsAll, PlainAll, OutsideListsAll]
  | v :: l => by simp only [toListsAll, PlainAll, OutsideListsAll, plain_iff v, plainAll_iff l]
end

mutual
theorem document_iff : ∀ v : Val, (∃ w, document v = some w) ↔ Plain v
  | .leaf _ => by simp [document, Plain]
  | .npInt _ => by simp [document, Plain]
  | .npFlt _ => by simp [document, Plain]
  | .list l => by simpa [document, Plain] using documentAll_iff l
  | .tup l => by simpa [document, Plain] using documentAll_iff l
  | .set _ => by simp [document, Plain]
  | .dict _ v => by simpa [document, Plain] using documentAll_iff v
  | .arr _ _ => by simp [document, Plain]
theorem documentAll_iff : ∀ l : List Val, (∃ w, documentAll l = some w) ↔ PlainAll l
  | [] => by simp [documentAll, PlainAll]
  | v :: l => by
    have h1 := document_iff v
    have h2 := documentAll_iff l
    simp only [documentAll, PlainAll, ← h1, ← h2]
    constructor
    · rintro ⟨w, hw⟩
      cases ha : document v with
      | none => simp [ha] at hw
      | some a =>
        cases hb : documentAll l with
        | none => simp [ha, hb] at hw
        | some b => exact ⟨⟨a, rfl⟩, ⟨b, rfl⟩⟩
    · rintro ⟨⟨a, ha⟩, ⟨b, hb⟩⟩
      exact ⟨a :: b, by simp [ha, hb]⟩
end

/-- **C150.** After `arrays_to_lists` the value can be written as JSON text exactly when arrays and numpy scalars stand only
in dictionaries and tuples (and there is no set). -/
theorem C150_writable (v : Val) : (∃ w, document (toLists v) = some w) ↔ OutsideLists v := by
  rw [document_iff, plain_iff]

example : OutsideLists (.dict ["zs", "N", "pair"]
    [.arr .float (.list [.leaf (.flt (1/2)), .leaf (.flt (1/2))]), .npInt 2,
     .tup [.arr .int (.list [.leaf (.int 1)]), .npFlt 3]]) := by
  simp [OutsideLists, OutsideListsAll, Plain, PlainAll]

/-- **C150 fails.** A list of arrays is left as it is and cannot be written. -/
theorem C150_list_of_arrays_fails (d : DType) (x : Val) (l : List Val) :
    toLists (.list (.arr d x :: l)) = .list (.arr d x :: l) ∧ document (toLists (.list (.arr d x :: l))) = none := by
  constructor
  · rfl
  · simp [toLists, document, documentAll]

/-- A dictionary keeps its keys and their order, each value is converted by itself. -/
theorem C150_fields (k : List String) (v : List Val) : toLists (.dict k v) = .dict k (v.map toLists) := by
  rw [toLists, toListsAll_eq]

example : toLists (.dict ["a", "b"] [.npInt 1, .arr .int (.list [.leaf (.int 2)])])
    = .dict ["a", "b"] [.leaf (.int 1), .list [.leaf (.int 2)]] := by
  simp [toLists, toListsAll]

mutual
theorem plain_toLists : ∀ v : Val, Plain v → toLists v = v
  | .leaf _, _ => rfl
  | .npInt _, h => h.elim
  | .npFlt _, h => h.elim
  | .list _, _ => rfl
  | .tup l, h => by rw [toLists, plainAll_toLists l (by simpa [Plain] using h)]
  | .set _, _ => rfl
  | .dict k v, h => by rw [toLists, plainAll_toLists v (by simpa [Plain] using h)]
  | .arr _ _, h => h.elim
theorem plainAll_toLists : ∀ l : List Val, PlainAll l → toListsAll l = l
  | [], _ => rfl
  | v :: l, h => by rw [toListsAll, plain_toLists v h.1, plainAll_toLists l h.2]
end

/-- A value that can be written already is not changed; in particular writing twice is writing once. -/
theorem C150_unchanged (v : Val) : Plain v → toLists v = v := plain_toLists v

example : Plain (.dict ["a"] [.tup [.leaf (.int 1), .list [.leaf .none]]]) := by simp [Plain, PlainAll]

theorem C150_idempotent (v : Val) (h : OutsideLists v) : toLists (toLists v) = toLists v :=
  plain_toLists _ ((plain_iff v).2 h)

example : OutsideLists (.tup [.npInt 1]) := by simp [OutsideLists, OutsideListsAll]

/-! ## Reading -/

mutual
theorem kinds_cells (d : DType) : ∀ v : Val, Cells d v → ∀ k ∈ kinds v, k = d
  | .leaf c, h => by simpa [kinds, Cells] using h
  | .list l, h => by simpa [kinds] using kindsAll_cells d l (by simpa [Cells] using h)
  | .npInt _, h => h.elim
  | .npFlt _, h => h.elim
  | .set _, h => h.elim
  | .dict _ _, h => h.elim
  | .tup _, h => h.elim
  | .arr _ _, h => h.elim
theorem kindsAll_cells (d : DType) : ∀ l : List Val, CellsAll d l → ∀ k ∈ kindsAll l, k = d
  | [], _ => by simp [kindsAll]
  | v :: l, h => by
    intro k hk
    rw [kindsAll, List.mem_append] at hk
    rcases hk with hk | hk
    · exact kinds_cells d v h.1 k hk
    · exact kindsAll_cells d l h.2 k hk
end

theorem promote_same (d : DType) (l : List DType) (h : ∀ k ∈ l, k = d) (h0 : l = [] → d = .float) : promote l = d := by
  unfold promote
  by_cases he : l = []
  · rw [if_pos he, h0 he]
  · rw [if_neg he]
    obtain ⟨a, ha⟩ := List.exists_mem_of_ne_nil l he
    have had := h a ha
    subst had
    have hm : ∀ k, k ∈ l ↔ k = a := fun k => ⟨h k, fun e => e ▸ ha⟩
    simp only [hm]
    cases a <;> simp

theorem castLeaf_same (text : Leaf → String) (c : Leaf) : castLeaf text c.kind c = c := by
  cases c <;> rfl

mutual
theorem cast_cells (text : Leaf → String) (d : DType) : ∀ v : Val, Cells d v → castVal text d v = v
  | .leaf c, h => by
    have h' : c.kind = d := by simpa [Cells] using h
    rw [castVal, ← h', castLeaf_same]
  | .list l, h => by rw [castVal, castAll_cells text d l (by simpa [Cells] using h)]
  | .npInt _, h => h.elim
  | .npFlt _, h => h.elim
  | .set _, h => h.elim
  | .dict _ _, h => h.elim
  | .tup _, h => h.elim
  | .arr _ _, h => h.elim
theorem castAll_cells (text : Leaf → String) (d : DType) : ∀ l : List Val, CellsAll d l → castAll text d l = l
  | [], _ => rfl
  | v :: l, h => by rw [castAll, cast_cells text d v h.1, castAll_cells text d l h.2]
end

mutual
theorem cells_plain (d : DType) : ∀ v : Val, Cells d v → Plain v
  | .leaf _, _ => by simp [Plain]
  | .list l, h => by simpa [Plain] using cellsAll_plain d l (by simpa [Cells] using h)
  | .npInt _, h => h.elim
  | .npFlt _, h => h.elim
  | .set _, h => h.elim
  | .dict _ _, h => h.elim
  | .tup _, h => h.elim
  | .arr _ _, h => h.elim
theorem cellsAll_plain (d : DType) : ∀ l : List Val, CellsAll d l → PlainAll l
  | [], _ => by simp [PlainAll]
  | v :: l, h => ⟨cells_plain d v h.1, cellsAll_plain d l h.2⟩
end

mutual
theorem cells_document (d : DType) : ∀ v : Val, Cells d v → document v = some v
  | .leaf _, _ => rfl
  | .list l, h => by rw [document, cellsAll_document d l (by simpa [Cells] using h)]; rfl
  | .npInt _, h => h.elim
  | .npFlt _, h => h.elim
  | .set _, h => h.elim
  | .dict _ _, h => h.elim
  | .tup _, h => h.elim
  | .arr _ _, h => h.elim
theorem cellsAll_document (d : DType) : ∀ l : List Val, CellsAll d l → documentAll l = some l
  | [], _ => rfl
  | v :: l, h => by rw [documentAll, cells_document d v h.1, cellsAll_document d l h.2]; rfl
end

/-- `numpy.array` of the content of a proper array is that array. -/
theorem array_proper (text : Leaf → String) (d : DType) (x : Val) (h : Proper d x) : array text x = some (.arr d x) := by
  obtain ⟨-, ⟨s, hs⟩, hc, h0⟩ := h
  have hp := promote_same d (kinds x) (kinds_cells d x hc) h0
  simp only [array, hs, hp, Option.map_some, cast_cells text d x hc]

theorem shapeAll_lists (l : List Val) (ss : List (List ℕ)) (h : shapeAll l = some ss) :
    ss.length = l.length ∧ ∀ i (hi : i < l.length) (hj : i < ss.length), shape l[i] = some ss[i] := by
  induction l generalizing ss with
  | nil =>
    simp only [shapeAll, Option.some.injEq] at h
    subst h
    simp
  | cons v l ih =>
    rw [shapeAll] at h
    cases hv : shape v with
    | none => simp [hv] at h
    | some s =>
      cases hl : shapeAll l with
      | none => simp [hv, hl] at h
      | some ts =>
        simp only [hv, hl, Option.bind_some, Option.map_some, Option.some.injEq] at h
        subst h
        obtain ⟨e1, e2⟩ := ih ts hl
        refine ⟨by simp [e1], ?_⟩
        intro i hi hj
        cases i with
        | zero => simpa using hv
        | succ i => simpa using e2 i (by simpa using hi) (by simpa using hj)

/-- The shape of nested lists begins with the length. -/
theorem shape_list (l : List Val) (s : List ℕ) (h : shape (.list l) = some s) : ∃ t, s = l.length :: t := by
  rw [shape] at h
  cases hl : shapeAll l with
  | none => simp [hl] at h
  | some ss =>
    have hlen := (shapeAll_lists l ss hl).1
    rw [hl, Option.bind_some] at h
    cases ss with
    | nil =>
      refine ⟨[], ?_⟩
      simp only [join, Option.some.injEq] at h
      rw [← h, ← hlen]
      rfl
    | cons a as =>
      simp only [join] at h
      split_ifs at h with hall
      refine ⟨a, ?_⟩
      simp only [Option.some.injEq] at h
      rw [← h, ← hlen]
      rfl

/-- In nested lists of one shape no element of a list has another length than the first. -/
theorem not_differs (d : DType) (a : List Val) (rest : List Val) (s : List ℕ)
    (hs : shape (.list (.list a :: rest)) = some s) (hc : CellsAll d rest) : differs a.length rest = false := by
  rw [shape] at hs
  cases hl : shapeAll (.list a :: rest) with
  | none => simp [hl] at hs
  | some ss =>
    rw [hl, Option.bind_some] at hs
    rw [shapeAll] at hl
    cases ha : shape (.list a) with
    | none => simp [ha] at hl
    | some t =>
      cases hr : shapeAll rest with
      | none => simp [ha, hr] at hl
      | some ts =>
        simp only [ha, hr, Option.bind_some, Option.map_some, Option.some.injEq] at hl
        subst hl
        simp only [join] at hs
        split_ifs at hs with hall
        obtain ⟨t', ht'⟩ := shape_list a t ha
        clear hs ha
        induction rest generalizing ts with
        | nil => rfl
        | cons v rest ih =>
          rw [shapeAll] at hr
          cases hv : shape v with
          | none => simp [hv] at hr
          | some u =>
            cases hr' : shapeAll rest with
            | none => simp [hv, hr'] at hr
            | some us =>
              simp only [hv, hr', Option.bind_some, Option.map_some, Option.some.injEq] at hr
              subst hr
              have hu : u = t := hall u (by simp)
              have hrest := ih hc.2 us hr' (fun w hw => hall w (by simp [hw]))
              have hcv := hc.1
              cases v with
              | leaf c =>
                rw [shape, Option.some.injEq] at hv
                rw [← hv, ht'] at hu
                cases hu
              | list l =>
                obtain ⟨u', hu'⟩ := shape_list l u hv
                rw [hu', ht'] at hu
                have hlen : l.length = a.length := by
                  have := List.cons.inj hu
                  exact this.1
                simp [differs, len, hlen, hrest]
              | npInt n => exact hcv.elim
              | npFlt q => exact hcv.elim
              | tup l => exact hcv.elim
              | set l => exact hcv.elim
              | dict k w => exact hcv.elim
              | arr e w => exact hcv.elim

/-- The list of a proper array becomes that array again. -/
theorem fromLists_proper (text : Leaf → String) (d : DType) (x : Val) (h : Proper d x) :
    fromLists text x = some (.arr d x) := by
  obtain ⟨⟨l, rfl⟩, ⟨s, hs⟩, hc, h0⟩ := h
  have harr := array_proper text d (.list l) ⟨⟨l, rfl⟩, ⟨s, hs⟩, hc, h0⟩
  rw [fromLists]
  unfold fromList
  split
  · rename_i a b rest
    have hc' : CellsAll d (.list a :: b :: rest) := by simpa [Cells] using hc
    rw [not_differs d a (b :: rest) s hs hc'.2]
    simpa using harr
  · exact harr

mutual
theorem saved_arrayed (text : Leaf → String) : ∀ v : Val, Arrayed v → ∃ w, document (toLists v) = some w ∧ fromLists text w = some v
  | .leaf c, _ => ⟨.leaf c, rfl, rfl⟩
  | .arr d x, h => by
    have hp : Proper d x := by simpa [Arrayed] using h
    exact ⟨x, by rw [toLists, cells_document d x hp.2.2.1], fromLists_proper text d x hp⟩
  | .dict k v, h => by
    obtain ⟨ws, h1, h2⟩ := savedAll_arrayed text v (by simpa [Arrayed] using h)
    exact ⟨.dict k ws, by rw [toLists, document, h1]; rfl, by rw [fromLists, h2]; rfl⟩
  | .list _, h => h.elim
  | .npInt _, h => h.elim
  | .npFlt _, h => h.elim
  | .set _, h => h.elim
  | .tup _, h => h.elim
theorem savedAll_arrayed (text : Leaf → String) :
    ∀ l : List Val, ArrayedAll l → ∃ w, documentAll (toListsAll l) = some w ∧ fromListsAll text w = some l
  | [], _ => ⟨[], rfl, rfl⟩
  | v :: l, h => by
    obtain ⟨w, h1, h2⟩ := saved_arrayed text v h.1
    obtain ⟨ws, h3, h4⟩ := savedAll_arrayed text l h.2
    exact ⟨w :: ws, by rw [toListsAll, documentAll, h1, h3]; rfl, by rw [fromListsAll, h2, h4]; rfl⟩
end

/-- **C150, partial.** A dictionary of primitive values, proper arrays of any number of axes and such dictionaries is the same
after saving, writing, reading and loading. Missing: lists, tuples, numpy scalars, arrays of another type than their elements
have (see the theorems below). -/
theorem C150_round_trip_partial (text : Leaf → String) (v : Val) (h : Arrayed v) : saved text v = some v := by
  obtain ⟨w, h1, h2⟩ := saved_arrayed text v h
  rw [saved, h1, Option.bind_some, h2]

example : Arrayed (.dict ["T", "zs", "kijs", "names"]
    [.leaf (.flt 300), .arr .float (.list [.leaf (.flt (1/4)), .leaf (.flt (3/4))]),
     .arr .float (.list [.list [.leaf (.flt 0), .leaf (.flt 1)], .list [.leaf (.flt 1), .leaf (.flt 0)]]),
     .dict ["a"] [.arr .float (.list [])]]) := by
  simp [Arrayed, ArrayedAll, Proper, shape, shapeAll, join, Cells, CellsAll, Leaf.kind, kinds, kindsAll]

/-- **C150 fails.** A list of the object comes back as an array. -/
theorem C150_list_fails (text : Leaf → String) (d : DType) (l : List Val) (h : Proper d (.list l)) :
    saved text (.list l) = some (.arr d (.list l)) := by
  rw [saved, toLists, cells_document d _ h.2.2.1, Option.bind_some, fromLists_proper text d _ h]

example : Proper .str (.list [.leaf (.str "methane"), .leaf (.str "ethane")]) := by
  simp [Proper, shape, shapeAll, join, Cells, CellsAll, Leaf.kind, kinds, kindsAll]

/-- **C150 fails.** Integers beside a float become floats, numbers beside a string become strings, truth values beside a
number become numbers: the elements of a mixed list are not kept. -/
theorem C150_mixed_fails (text : Leaf → String) (n : ℤ) (q : ℚ) (s : String) (b : Bool) :
    fromLists text (.list [.leaf (.int n), .leaf (.flt q)]) = some (.arr .float (.list [.leaf (.flt n), .leaf (.flt q)])) ∧
    fromLists text (.list [.leaf (.flt q), .leaf (.str s)])
      = some (.arr .str (.list [.leaf (.str (text (.flt q))), .leaf (.str s)])) ∧
    fromLists text (.list [.leaf (.bool b), .leaf (.int n)])
      = some (.arr .int (.list [.leaf (.int (if b then 1 else 0)), .leaf (.int n)])) := by
  refine ⟨?_, ?_, ?_⟩ <;>
  simp [fromLists, fromList, array, shape, shapeAll, join, kinds, kindsAll, promote, castVal, castAll, castLeaf, Leaf.kind]

/-- With a missing value (`None`) in the list all elements are kept as they are. -/
theorem C150_missing (text : Leaf → String) (a b : Leaf) :
    fromLists text (.list [.leaf a, .leaf .none, .leaf b])
      = some (.arr .object (.list [.leaf a, .leaf .none, .leaf b])) := by
  cases a <;> cases b <;>
  simp [fromLists, fromList, array, shape, shapeAll, join, kinds, kindsAll, promote, castVal, castAll, castLeaf, Leaf.kind]

/-- **C150 fails.** An array of integers without elements comes back as an array of floats, and an array of objects without a
missing value as an array of numbers. -/
theorem C150_type_fails (text : Leaf → String) (q : ℚ) :
    saved text (.arr .int (.list [])) = some (.arr .float (.list [])) ∧
    saved text (.arr .object (.list [.leaf (.flt q)])) = some (.arr .float (.list [.leaf (.flt q)])) := by
  constructor <;>
  simp [saved, toLists, document, documentAll, fromLists, fromList, array, shape, shapeAll, join, kinds, kindsAll, promote,
    castVal, castAll, castLeaf, Leaf.kind]

/-! ## Tuples of arrays (112-117) -/

theorem arrayAll_proper (text : Leaf → String) (l : List (DType × Val)) (h : ∀ p ∈ l, Proper p.1 p.2) :
    arrayAll text (l.map Prod.snd) = some (l.map fun p => .arr p.1 p.2) := by
  induction l with
  | nil => rfl
  | cons p l ih =>
    rw [List.map_cons, arrayAll, array_proper text p.1 p.2 (h p (by simp)), ih (fun q hq => h q (by simp [hq]))]
    rfl

theorem documentAll_proper (l : List (DType × Val)) (h : ∀ p ∈ l, Proper p.1 p.2) :
    documentAll (toListsAll (l.map fun p => .arr p.1 p.2)) = some (l.map Prod.snd) := by
  induction l with
  | nil => rfl
  | cons p l ih =>
    rw [List.map_cons, toListsAll, toLists, documentAll, cells_document p.1 p.2 (h p (by simp)).2.2.1,
      ih (fun q hq => h q (by simp [hq]))]
    rfl

theorem differs_of (n : ℕ) (l : List (DType × Val)) (h : ∀ p ∈ l, Proper p.1 p.2)
    (hn : ∃ p ∈ l, len p.2 ≠ some n) : differs n (l.map Prod.snd) = true := by
  induction l with
  | nil => simp at hn
  | cons p l ih =>
    obtain ⟨a, ha⟩ := (h p (by simp)).1
    rw [List.map_cons, differs, ha]
    simp only [len]
    by_cases e : a.length = n
    · rw [if_neg (by simp [e])]
      apply ih (fun q hq => h q (by simp [hq]))
      obtain ⟨q, hq, hne⟩ := hn
      rcases List.mem_cons.1 hq with rfl | hq
      · rw [ha] at hne
        simp [len, e] at hne
      · exact ⟨q, hq, hne⟩
    · rw [if_pos e]

/-- **C150.** A tuple of arrays that do not all have the length of the first one is the same after saving and loading,
although the document has only lists. -/
theorem C150_tuple (text : Leaf → String) (p : DType × Val) (l : List (DType × Val)) (h : ∀ q ∈ p :: l, Proper q.1 q.2)
    (hn : ∃ q ∈ l, len q.2 ≠ len p.2) :
    saved text (.tup ((p :: l).map fun q => .arr q.1 q.2)) = some (.tup ((p :: l).map fun q => .arr q.1 q.2)) := by
  obtain ⟨a, ha⟩ := (h p (by simp)).1
  have hd : differs a.length (l.map Prod.snd) = true := by
    apply differs_of a.length l (fun q hq => h q (by simp [hq]))
    obtain ⟨q, hq, hne⟩ := hn
    exact ⟨q, hq, by rw [ha] at hne; simpa [len] using hne⟩
  rw [saved, toLists, document, documentAll_proper (p :: l) h, Option.map_some, Option.bind_some, fromLists]
  cases l with
  | nil => simp at hn
  | cons r l =>
    have hall := arrayAll_proper text (p :: r :: l) h
    simp only [List.map_cons] at hall hd ⊢
    rw [ha] at hall ⊢
    simp only [fromList, hd, if_true, hall]

example : ∃ (p : DType × Val) (l : List (DType × Val)), (∀ q ∈ p :: l, Proper q.1 q.2) ∧ (∃ q ∈ l, len q.2 ≠ len p.2) := by
  refine ⟨(.int, .list [.leaf (.int 1)]), [(.float, .list [.leaf (.flt 1), .leaf (.flt 2)])], ?_, ?_⟩
  · simp [Proper, shape, shapeAll, join, Cells, CellsAll, Leaf.kind, kinds, kindsAll]
  · simp [len]

/-- **C150 fails.** A tuple of two arrays of the same length comes back as one array of two rows. -/
theorem C150_tuple_fails (text : Leaf → String) (a b c e : ℚ) :
    saved text (.tup [.arr .float (.list [.leaf (.flt a), .leaf (.flt b)]), .arr .float (.list [.leaf (.flt c), .leaf (.flt e)])])
      = some (.arr .float (.list [.list [.leaf (.flt a), .leaf (.flt b)], .list [.leaf (.flt c), .leaf (.flt e)]])) := by
  simp [saved, toLists, toListsAll, document, documentAll, fromLists, fromList, differs, len, array, shape, shapeAll, join, kinds,
    kindsAll, promote, castVal, castAll, castLeaf, Leaf.kind]

/-- **C150 fails.** Loading raises when lists of different lengths stand one level deeper, when a number stands beside a
list, or when the only list of the list is itself uneven. -/
theorem C150_uneven_fails (text : Leaf → String) (a b c e : Leaf) :
    fromLists text (.list [.list [.list [.leaf a], .list [.leaf b, .leaf c]], .list [.list [.leaf a], .list [.leaf e]]]) = none ∧
    fromLists text (.list [.leaf a, .list [.leaf b]]) = none ∧
    fromLists text (.list [.list [.list [.leaf a], .list [.leaf b, .leaf c]]]) = none := by
  refine ⟨?_, ?_, ?_⟩ <;>
  simp [fromLists, fromList, differs, len, array, shape, shapeAll, join]

/-! ## Names of objects (344-379) -/

/-- A field of the loaded object: a value, an object, a list of objects, a dictionary of objects. -/
inductive Res where
  | keep (v : Val)
  | obj (k : ℕ)
  | objs (l : List ℕ)
  | objDict (keys : List String) (l : List ℕ)

/-- `o.startswith('pyid_')` (354, 360, 369). -/
def isTag (s : String) : Bool := "pyid_".toList.isPrefixOf s.toList

/-- The objects with the given names, each loaded when it is not in the table (361-365, 370-374); `find` is the table after
loading, `none` the exception for a name that is not in the document. -/
def findAll (find : String → Option ℕ) : List Val → Option (List ℕ)
  | [] => some []
  | .leaf (.str s) :: l => (find s).bind fun k => (findAll find l).map fun ks => k :: ks
  | _ :: _ => none

/-- The branches of lines 353-375. -/
def resolve (find : String → Option ℕ) : Val → Option Res
  | .leaf (.str s) => if isTag s then (find s).map .obj else some (.keep (.leaf (.str s)))
  | .list (.leaf (.str s) :: l) =>
    if isTag s then (findAll find (.leaf (.str s) :: l)).map .objs else some (.keep (.list (.leaf (.str s) :: l)))
  | .dict k (.leaf (.str s) :: l) =>
    if isTag s then (findAll find (.leaf (.str s) :: l)).map (.objDict k) else some (.keep (.dict k (.leaf (.str s) :: l)))
  | v => some (.keep v)

/-- One searched field in `from_json`: the conversion to arrays of a `vectorized` object comes first (345-346), the names are
replaced afterwards (348-375). -/
def loadField (text : Leaf → String) (find : String → Option ℕ) (vec : Bool) (v : Val) : Option Res :=
  (if vec then fromLists text v else some v).bind (resolve find)

/-- The names `as_json` writes for a list of objects (279-289). -/
def names (l : List String) : List Val := l.map fun s => .leaf (.str s)

theorem findAll_names (find : String → Option ℕ) (l : List String) (f : String → ℕ) (h : ∀ s ∈ l, find s = some (f s)) :
    findAll find (names l) = some (l.map f) := by
  induction l with
  | nil => rfl
  | cons s l ih =>
    have hih := ih (fun t ht => h t (by simp [ht]))
    rw [names] at hih ⊢
    rw [List.map_cons, findAll, h s (by simp), hih]
    rfl

/-- **C150.** In an object that is not `vectorized` a list of objects is restored: the objects with these names in this order. -/
theorem C150_references (text : Leaf → String) (find : String → Option ℕ) (s : String) (l : List String) (f : String → ℕ)
    (h : ∀ t ∈ s :: l, find t = some (f t)) (hs : isTag s = true) :
    loadField text find false (.list (names (s :: l))) = some (.objs ((s :: l).map f)) := by
  have hf := findAll_names find (s :: l) f h
  simp only [names, List.map_cons] at hf ⊢
  simp only [loadField, Bool.false_eq_true, if_false, Option.bind_some, resolve, hs, if_true, hf, Option.map_some]

example : ∃ (find : String → Option ℕ) (f : String → ℕ), (∀ t ∈ ["pyid_1", "pyid_2"], find t = some (f t)) ∧ isTag "pyid_1" = true :=
  ⟨fun s => some s.length, String.length, by simp, by decide⟩

theorem shapeAll_names (l : List String) : shapeAll (names l) = some (l.map fun _ => []) := by
  induction l with
  | nil => rfl
  | cons s l ih =>
    rw [names] at ih ⊢
    rw [List.map_cons, shapeAll, ih]
    rfl

theorem cells_names (l : List String) : CellsAll .str (names l) := by
  induction l with
  | nil => trivial
  | cons s l ih =>
    rw [names] at ih ⊢
    exact ⟨by simp [Cells, Leaf.kind], ih⟩

theorem proper_names (s : String) (l : List String) : Proper .str (.list (names (s :: l))) := by
  refine ⟨⟨_, rfl⟩, ⟨[l.length + 1], ?_⟩, by simpa [Cells] using cells_names (s :: l), by simp [kinds, names, kindsAll]⟩
  rw [shape, shapeAll_names]
  simp [join]

/-- **C150 fails.** In a `vectorized` object a list of objects is lost: the field of the loaded object is an array of the
names, whatever the document holds. -/
theorem C150_references_fails (text : Leaf → String) (find : String → Option ℕ) (s : String) (l : List String) :
    loadField text find true (.list (names (s :: l))) = some (.keep (.arr .str (.list (names (s :: l))))) := by
  simp only [loadField, if_true, fromLists_proper text .str _ (proper_names s l), Option.bind_some, resolve]

theorem fromListsAll_names (text : Leaf → String) (l : List String) : fromListsAll text (names l) = some (names l) := by
  induction l with
  | nil => rfl
  | cons s l ih =>
    rw [names] at ih ⊢
    rw [List.map_cons, fromListsAll, ih]
    rfl

/-- **C150.** A single object and a dictionary of objects are restored whether the object is `vectorized` or not. -/
theorem C150_single (text : Leaf → String) (find : String → Option ℕ) (vec : Bool) (k : List String) (s : String) (l : List String)
    (f : String → ℕ) (h : ∀ t ∈ s :: l, find t = some (f t)) (hs : isTag s = true) :
    loadField text find vec (.leaf (.str s)) = some (.obj (f s)) ∧
    loadField text find vec (.dict k (names (s :: l))) = some (.objDict k ((s :: l).map f)) := by
  have hf := findAll_names find (s :: l) f h
  have hn := fromListsAll_names text (s :: l)
  have h1 := h s (by simp)
  constructor
  · cases vec <;> simp [loadField, fromLists, resolve, hs, h1]
  · simp only [names, List.map_cons] at hf hn ⊢
    cases vec <;>
    simp only [loadField, fromLists, Bool.false_eq_true, if_false, if_true, hn, Option.map_some, Option.bind_some, resolve, hs, hf]

/-- A field that holds no names is given to the object as it was converted. -/
theorem C150_other (text : Leaf → String) (find : String → Option ℕ) (d : DType) (x : Val) (h : Proper d x) (s : String)
    (hs : isTag s = false) :
    loadField text find true x = some (.keep (.arr d x)) ∧
    loadField text find true (.leaf (.str s)) = some (.keep (.leaf (.str s))) := by
  constructor
  · simp only [loadField, if_true, fromLists_proper text d x h, Option.bind_some, resolve]
  · simp [loadField, fromLists, resolve, hs]

example : Proper .float (.list [.leaf (.flt 1)]) ∧ isTag "methane" = false := by
  refine ⟨by simp [Proper, shape, shapeAll, join, Cells, CellsAll, Leaf.kind, kinds, kindsAll], by decide⟩

/-! ## Fields that can be computed again (254-262, 287, 299, 310) -/

/-- An object for `as_json`: fields that are kept, fields in `recalculable_attributes`, objects it refers to. -/
inductive Node where
  | node (kept : List String) (recalc : List String) (children : List Node)

mutual
/-- The field names written for an object and all objects below it, in the order of writing; an object passes `cache` and
not `option` to the objects it refers to (287, 299, 310). -/
def written (option : ℕ) : Node → List (List String)
  | .node kept recalc children =>
    (if option % 2 = 1 then kept else kept ++ recalc) :: writtenAll children
/-- The objects referred to. -/
def writtenAll : List Node → List (List String)
  | [] => []
  | n :: l => written 0 n ++ writtenAll l
end

/-- `JSON_DROP_RECALCULABLE` (211) leaves the fields of the object itself out that can be computed again, and without it all are
written. -/
theorem C150_option (kept recalc : List String) (children : List Node) :
    (written 1 (.node kept recalc children)).head? = some kept ∧
    (written 0 (.node kept recalc children)).head? = some (kept ++ recalc) := by
  simp [written]

/-- **C150 fails.** The objects below are written with all their fields under every option. -/
theorem C150_option_fails (option : ℕ) (kept recalc : List String) (children : List Node) :
    (written option (.node kept recalc children)).tail = (written 0 (.node kept recalc children)).tail ∧
    ["_GE"] ∈ written 1 (.node ["T"] [] [.node [] ["_GE"] []]) := by
  constructor <;> simp [written, writtenAll]

end Verif.Arrays
