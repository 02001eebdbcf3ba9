import Mathlib.Tactic
import Mathlib.Data.List.Sort

/-!
# C148 — heat capacities in pieces, their limits, and the arguments they export

Modelled code (`/repo/thermo`):

* `heat_capacity.py` 351-366 (gas) and 1269-1284 (solid): Shomate data with several temperature
  ranges, pieces taken in the order of the data file;
* `heat_capacity.py` 838-877 (liquid) and 921-965 (splines): the same with the pieces sorted by
  lower limit first;
* `heat_capacity.py` 166, 574-576, 301, 772, 783-785, 1225: the names which are withheld from
  `as_string`;
* `heat_capacity.py` 341-350: limits of the Joback polynomial;
* `utils/t_dependent_property.py` 3611-3630 (`add_piecewise_method`), 3026-3031 (evaluation),
  3047-3061 and 3144-3167 (in range or extrapolated, and from which side), 1655-1677
  (`as_string`), 1685-1782 (`as_method_kwargs`).

Simplifications: temperatures are exact rationals, not-a-number is `none`; the coefficients of a
piece are an arbitrary type `α`; a generated name `f'{BASE}_{k}'` is `Name.part k` and the bare
name is `Name.whole`.  A raised exception is `none`.  The dictionaries of all correlation models
are one association list, since `as_method_kwargs` treats each of them alike.
-/

namespace Verif.CpPieces

variable {α : Type*}

/-- One row of the data file: limits and coefficients. -/
structure Piece (α : Type*) where
  Tmin : ℚ
  Tmax : ℚ
  dat : α
deriving DecidableEq

/-- `BASE` or `BASE_k`. -/
inductive Name
  | whole
  | part (k : ℕ)
deriving DecidableEq

/-- `name = BASE if len(Cp_dat) == 1 else f'{BASE}_{i+1}'` (heat_capacity.py 358, 845, 932, 1276). -/
def pieceName (n i : ℕ) : Name := if n = 1 then .whole else .part (i + 1)

/-- The pieces with their generated names, in file order. -/
def named (d : List (Piece α)) : List (Name × Piece α) :=
  d.mapIdx fun i p => (pieceName d.length i, p)

/-- `T_ranges = [Cp_dat[0][0]]`, then one upper limit per piece (356, 364). -/
def ranges : List (Name × Piece α) → Option (List ℚ)
  | [] => none
  | p :: ps => some (p.2.Tmin :: (p :: ps).map (·.2.Tmax))

/-- What is left on the object: the correlations, and the piecewise method over them. -/
structure Built (α : Type*) where
  corrs : List (Name × Piece α)
  limits : ℚ × ℚ
  pw : Option (List Name × List ℚ)

/-- `T_ranges == list(sorted(T_ranges))` (t_dependent_property.py 3618). -/
def ascending (l : List ℚ) : Bool := decide (l.Pairwise (· ≤ ·))

/-- `add_piecewise_method` (3611-3630) for freshly added pieces: the names exist and the lengths
agree, so the only test which can fail is the order of `T_ranges`. -/
def addPiecewise (l : List (Name × Piece α)) (r : List ℚ) : Option (Built α) :=
  if ascending r then
    some ⟨l, (r.headD 0, r.getLastD 0), some (l.map (·.1), r)⟩
  else none

/-- heat_capacity.py 355-366: the pieces as given. -/
def build (l : List (Name × Piece α)) : Option (Built α) :=
  (ranges l).bind fun r =>
    if 1 < l.length then addPiecewise l r
    else some ⟨l, (r.headD 0, r.getLastD 0), none⟩

/-- Gas and solid (351-366, 1269-1284): file order. -/
def gas (d : List (Piece α)) : Option (Built α) := build (named d)

/-- Liquid and splines (838-877, 921-965): sorted by lower limit, a stable sort. -/
def liquid (d : List (Piece α)) : Option (Built α) :=
  build ((named d).insertionSort fun a b => a.2.Tmin ≤ b.2.Tmin)

/-- t_dependent_property.py 3026-3031: the first piece whose upper limit is not passed, else the
last one. -/
def used (b : Built α) (T : ℚ) : Option (Piece α) :=
  match b.corrs.find? fun p => decide (T ≤ p.2.Tmax) with
  | some p => some p.2
  | none => b.corrs.getLast?.map (·.2)

/-! ## The pieces -/

theorem named_snd (d : List (Piece α)) : (named d).map (·.2) = d := by
  unfold named
  exact List.ext_getElem (by simp) (by simp)

theorem named_length (d : List (Piece α)) : (named d).length = d.length := by simp [named]

/-- **C148 (fresh names).** The names of the pieces are distinct, so no piece overwrites
another. -/
theorem C148_fresh (d : List (Piece α)) : ((named d).map (·.1)).Nodup := by
  unfold named
  rw [List.Nodup, List.pairwise_iff_getElem]
  intro i j hi hj hij
  simp only [List.length_map, List.length_mapIdx] at hi hj
  have h1 : d.length ≠ 1 := by omega
  simp only [List.getElem_map, List.getElem_mapIdx, pieceName, h1, if_false, ne_eq,
    Name.part.injEq]
  omega

/-- Pieces in ascending order which do not overlap; gaps are allowed. -/
def Apart (d : List (Piece α)) : Prop :=
  d.Pairwise (fun a b => a.Tmax ≤ b.Tmin) ∧ ∀ p ∈ d, p.Tmin < p.Tmax

theorem build_apart (l : List (Name × Piece α)) (h0 : l ≠ [])
    (h : Apart (l.map (·.2))) : ∃ b, build l = some b ∧ b.corrs = l ∧
      b.limits.1 = (l.head h0).2.Tmin ∧ b.limits.2 = (l.getLast h0).2.Tmax := by
  obtain ⟨hp, hw⟩ := h
  cases l with
  | nil => exact absurd rfl h0
  | cons p ps =>
    have hlast : (p.2.Tmin :: (p :: ps).map (·.2.Tmax)).getLastD 0
        = ((p :: ps).getLast h0).2.Tmax := by
      rw [List.getLastD_eq_getLast?, List.getLast?_cons]
      simp only [Option.getD_some]
      rw [List.getLast?_map, List.getLast?_eq_getLast_of_ne_nil h0]
      simp
    by_cases h1 : 1 < (p :: ps).length
    · have hasc : ascending (p.2.Tmin :: (p :: ps).map (·.2.Tmax)) = true := by
        unfold ascending
        rw [decide_eq_true_eq, List.pairwise_cons]
        rw [List.map_cons, List.pairwise_cons] at hp
        refine ⟨?_, ?_⟩
        · intro x hx
          rw [List.map_cons, List.mem_cons] at hx
          have hpw := hw p.2 (by simp)
          rcases hx with rfl | hx
          · exact hpw.le
          · obtain ⟨q, hq, rfl⟩ := List.mem_map.1 hx
            have := hp.1 q.2 (List.mem_map.2 ⟨q, hq, rfl⟩)
            have := hw q.2 (by
              rw [List.map_cons]; exact List.mem_cons_of_mem _ (List.mem_map.2 ⟨q, hq, rfl⟩))
            linarith
        · have hq : ((p :: ps).map (·.2)).Pairwise (fun a b => a.Tmax ≤ b.Tmax) := by
            rw [List.map_cons, List.pairwise_cons]
            refine ⟨fun q hq => (hp.1 q hq).trans (hw q (by
              rw [List.map_cons]; exact List.mem_cons_of_mem _ hq)).le, ?_⟩
            refine List.Pairwise.imp_of_mem ?_ hp.2
            intro a b _ hb hab
            exact hab.trans (hw b (by rw [List.map_cons]; exact List.mem_cons_of_mem _ hb)).le
          have := (List.pairwise_map (f := fun q : Piece α => q.Tmax) (R := (· ≤ ·))).2 hq
          simpa [List.map_map, Function.comp_def] using this
      refine ⟨⟨p :: ps, (p.2.Tmin, (p.2.Tmin :: (p :: ps).map (·.2.Tmax)).getLastD 0),
        some ((p :: ps).map (·.1), p.2.Tmin :: (p :: ps).map (·.2.Tmax))⟩, ?_, rfl, rfl, hlast⟩
      · simp only [build, ranges, Option.bind_some]
        rw [if_pos h1]
        unfold addPiecewise
        rw [if_pos hasc]
        rfl
    · refine ⟨⟨p :: ps, (p.2.Tmin, (p.2.Tmin :: (p :: ps).map (·.2.Tmax)).getLastD 0), none⟩,
        ?_, rfl, rfl, hlast⟩
      · simp only [build, ranges, Option.bind_some]
        rw [if_neg h1]
        rfl

/-- **C148 (file order).** Gas and solid data whose pieces are stored from cold to hot without
overlap are accepted, and the limits are those of the first and last piece. -/
theorem C148_gas (d : List (Piece α)) (h0 : d ≠ []) (h : Apart d) :
    ∃ b, gas d = some b ∧ b.corrs.map (·.2) = d ∧
      b.limits = ((d.head h0).Tmin, (d.getLast h0).Tmax) := by
  have hn : named d ≠ [] := by
    intro hc; have := named_length d; rw [hc] at this
    exact h0 (List.length_eq_zero_iff.1 (by simpa using this.symm))
  obtain ⟨b, hb, hc, hl, hr⟩ := build_apart (named d) hn (by rw [named_snd]; exact h)
  refine ⟨b, hb, by rw [hc, named_snd], Prod.ext ?_ ?_⟩
  · rw [hl]
    have : ((named d).map (·.2)).head (by simpa using hn) = d.head h0 := by
      congr 1; exact named_snd d
    rw [← this, List.head_map]
  · rw [hr]
    have : ((named d).map (·.2)).getLast (by simpa using hn) = d.getLast h0 := by
      congr 1; exact named_snd d
    rw [← this, List.getLast_map]

/-- **C148 (any order).** Liquid data which can be arranged from cold to hot without overlap are
accepted whatever the order in the file, and the pieces end up in that arrangement. -/
theorem C148_liquid (d s : List (Piece α)) (h0 : s ≠ []) (hs : Apart s) (hd : d.Perm s) :
    ∃ b, liquid d = some b ∧ b.corrs.map (·.2) = s ∧
      b.limits = ((s.head h0).Tmin, (s.getLast h0).Tmax) := by
  let r : Name × Piece α → Name × Piece α → Prop := fun a b => a.2.Tmin ≤ b.2.Tmin
  haveI : Std.Total r := ⟨fun a b => le_total _ _⟩
  haveI : IsTrans _ r := ⟨fun a b c => le_trans⟩
  set l := (named d).insertionSort fun a b => a.2.Tmin ≤ b.2.Tmin with hl
  have hperm : l.Perm (named d) := List.perm_insertionSort _ _
  have hsort : l.Pairwise r := List.pairwise_insertionSort r (named d)
  have hps : (l.map (·.2)).Perm s := by
    refine (hperm.map _).trans ?_
    rw [named_snd]; exact hd
  have hstrict : s.Pairwise fun a b => a.Tmin < b.Tmin := by
    refine List.Pairwise.imp_of_mem ?_ hs.1
    intro a b ha _ hab
    exact lt_of_lt_of_le (hs.2 a ha) hab
  have heq : l.map (·.2) = s := by
    refine List.Perm.eq_of_pairwise (le := fun a b : Piece α => a.Tmin ≤ b.Tmin) ?_ ?_
      (hstrict.imp fun h => h.le) hps
    · intro a b ha hb hab hba
      have ha' := hps.mem_iff.1 ha
      by_contra hne
      have hT : a.Tmin = b.Tmin := le_antisymm hab hba
      have hinj : ∀ t : List (Piece α), t.Pairwise (fun a b => a.Tmin < b.Tmin) →
          ∀ x ∈ t, ∀ y ∈ t, x.Tmin = y.Tmin → x = y := by
        intro t ht
        induction t with
        | nil => intro x hx; cases hx
        | cons q qs ih =>
          rw [List.pairwise_cons] at ht
          intro x hx y hy hxy
          rcases List.mem_cons.1 hx with hx' | hx' <;> rcases List.mem_cons.1 hy with hy' | hy'
          · rw [hx', hy']
          · exact absurd (hx' ▸ hxy) (ht.1 y hy').ne
          · exact absurd (hy' ▸ hxy) (ht.1 x hx').ne'
          · exact ih ht.2 x hx' y hy' hxy
      exact hne (hinj s hstrict a ha' b hb hT)
    · exact List.pairwise_map.2 hsort
  have hn : l ≠ [] := by
    intro hc; rw [hc] at heq; exact h0 heq.symm
  obtain ⟨b, hb, hc, hl1, hr1⟩ := build_apart l hn (by rw [heq]; exact hs)
  refine ⟨b, hb, by rw [hc, heq], Prod.ext ?_ ?_⟩
  · rw [hl1]
    have : (l.map (·.2)).head (by simpa using hn) = s.head h0 := by congr 1
    rw [← this, List.head_map]
  · rw [hr1]
    have : (l.map (·.2)).getLast (by simpa using hn) = s.getLast h0 := by congr 1
    rw [← this, List.getLast_map]

/-- Two pieces stored from hot to cold. -/
def hotFirst : List (Piece ℕ) := [⟨500, 1000, 1⟩, ⟨300, 500, 2⟩]

example : Apart hotFirst.reverse := by
  refine ⟨?_, ?_⟩ <;> simp [hotFirst] <;> norm_num

example : ∃ b, liquid hotFirst = some b ∧ b.corrs.map (·.2) = hotFirst.reverse ∧
    b.limits = (300, 1000) :=
  C148_liquid hotFirst hotFirst.reverse (by simp [hotFirst])
    ⟨by simp [hotFirst], by simp [hotFirst]; norm_num⟩ (List.reverse_perm _).symm

example : ∃ b, gas hotFirst.reverse = some b ∧ b.corrs.map (·.2) = hotFirst.reverse ∧
    b.limits = (300, 1000) :=
  C148_gas hotFirst.reverse (by simp [hotFirst]) ⟨by simp [hotFirst], by simp [hotFirst]; norm_num⟩

example : ((named hotFirst).map (·.1)) = [.part 1, .part 2] := by decide

/-- **C148 fails.** Gas and solid data stored in another order raise an exception while the object
is constructed; the liquid class takes the same data. -/
theorem C148_order_fails : gas hotFirst = none ∧ (liquid hotFirst).isSome := by
  constructor
  · decide +kernel
  · decide +kernel

/-- **C148 fails.** Sorting by lower limit is not enough: a piece lying inside another one makes
the construction raise in the liquid class as well. -/
theorem C148_nested_fails (a b c e : ℚ) (x y : α) (h1 : a < b) (h2 : c < e) (_h3 : b < c) :
    liquid [⟨a, e, x⟩, ⟨b, c, y⟩] = none := by
  have hl : (named [⟨a, e, x⟩, ⟨b, c, y⟩] : List (Name × Piece α)).insertionSort
      (fun a b => a.2.Tmin ≤ b.2.Tmin) =
      [(.part 1, ⟨a, e, x⟩), (.part 2, ⟨b, c, y⟩)] := by
    have hn : (named [⟨a, e, x⟩, ⟨b, c, y⟩] : List (Name × Piece α)) =
      [(.part 1, ⟨a, e, x⟩), (.part 2, ⟨b, c, y⟩)] := rfl
    rw [hn]
    simp [List.insertionSort, h1.le]
  have hasc : ascending [a, e, c] = false := by
    unfold ascending
    rw [decide_eq_false_iff_not]
    intro h
    rw [List.pairwise_cons, List.pairwise_cons] at h
    exact absurd (h.2.1 c (by simp)) (not_le.2 h2)
  unfold liquid
  rw [hl]
  simp [build, ranges, addPiecewise, hasc]

example : liquid [⟨200, 900, 1⟩, ⟨300, 500, 2⟩] = none :=
  C148_nested_fails 200 300 500 900 1 2 (by norm_num) (by norm_num) (by norm_num)

/-- Pieces which meet: each begins where the previous ends. -/
def Meet (d : List (Piece α)) : Prop :=
  d.IsChain (fun a b => a.Tmax = b.Tmin) ∧ ∀ p ∈ d, p.Tmin < p.Tmax

theorem find_covers (d : List (Name × Piece α)) (h : (d.map (·.2)).IsChain fun a b => a.Tmax = b.Tmin)
    (T : ℚ) (h0 : d ≠ []) (hlo : (d.head h0).2.Tmin ≤ T) (hhi : T ≤ (d.getLast h0).2.Tmax) :
    ∃ p ∈ d, d.find? (fun p => decide (T ≤ p.2.Tmax)) = some p ∧ p.2.Tmin ≤ T ∧ T ≤ p.2.Tmax := by
  induction d with
  | nil => exact absurd rfl h0
  | cons p ps ih =>
    by_cases hT : T ≤ p.2.Tmax
    · exact ⟨p, by simp, by simp [List.find?_cons, hT], hlo, hT⟩
    · cases ps with
      | nil => exact absurd hhi hT
      | cons q qs =>
        rw [List.map_cons, List.map_cons, List.isChain_cons_cons] at h
        obtain ⟨r, hr, hf, h1, h2⟩ := ih h.2 (by simp)
          (by simp only [List.head_cons]; rw [← h.1]; exact (not_le.1 hT).le)
          (by rw [List.getLast_cons (by simp)] at hhi; exact hhi)
        refine ⟨r, List.mem_cons_of_mem _ hr, ?_, h1, h2⟩
        rw [List.find?_cons]
        simp only [hT, decide_false]
        exact hf

/-- **C148 (the right piece).** When the pieces meet, every temperature within the limits of the
whole method is evaluated with a piece which covers it. -/
theorem C148_covered (b : Built α) (l : List (Name × Piece α)) (h0 : l ≠ [])
    (hm : Meet (l.map (·.2))) (hb : build l = some b) (T : ℚ) (hlo : b.limits.1 ≤ T)
    (hhi : T ≤ b.limits.2) : ∃ p, used b T = some p ∧ p ∈ l.map (·.2) ∧ p.Tmin ≤ T ∧ T ≤ p.Tmax := by
  have hap : Apart (l.map (·.2)) := by
    refine ⟨?_, hm.2⟩
    obtain ⟨hc, hw⟩ := hm
    generalize l.map (·.2) = d at hc hw
    induction d with
    | nil => exact List.Pairwise.nil
    | cons p ps ih =>
      have ht := ih hc.tail (fun q hq => hw q (List.mem_cons_of_mem _ hq))
      rw [List.pairwise_cons]
      refine ⟨?_, ht⟩
      cases ps with
      | nil => intro q hq; cases hq
      | cons q qs =>
        rw [List.isChain_cons_cons] at hc
        rw [List.pairwise_cons] at ht
        intro r hr
        rw [List.mem_cons] at hr
        rcases hr with rfl | hr
        · exact hc.1.le
        · have := ht.1 r hr
          have := hw q (by simp)
          linarith [hc.1]
  obtain ⟨b', hb', hc, hl, hr⟩ := build_apart l h0 hap
  rw [hb] at hb'
  obtain rfl := Option.some.inj hb'
  rw [hl] at hlo
  rw [hr] at hhi
  obtain ⟨p, hp, hf, h1, h2⟩ := find_covers l hm.1 T h0 hlo hhi
  exact ⟨p.2, by simp [used, hc, hf], List.mem_map.2 ⟨p, hp, rfl⟩, h1, h2⟩

example : Meet (hotFirst.reverse) := by
  refine ⟨?_, ?_⟩ <;> simp [hotFirst] <;> norm_num

/-- Both sides of the joint at 500 K, and the joint itself, for the pieces above. -/
example : (liquid hotFirst).map (fun b => (used b 400, used b 500, used b 501)) =
    some (some ⟨300, 500, 2⟩, some ⟨300, 500, 2⟩, some ⟨500, 1000, 1⟩) := by decide +kernel

/-- **C148 fails.** The method's limits run over gaps between pieces: with data for 300-500 K and
700-1000 K a request at 600 K counts as within range and is answered with the coefficients of the
upper piece, below its own lower limit. -/
theorem C148_gap_fails :
    ∃ d : List (Piece ℕ), Apart d ∧ ∃ b, gas d = some b ∧ b.limits.1 ≤ 600 ∧ 600 ≤ b.limits.2 ∧
      used b 600 = some ⟨700, 1000, 2⟩ := by
  refine ⟨[⟨300, 500, 1⟩, ⟨700, 1000, 2⟩], ⟨by simp; norm_num, by simp; norm_num⟩, _, rfl, ?_, ?_, ?_⟩
  · decide +kernel
  · decide +kernel
  · decide +kernel

/-! ## Names withheld from `as_string` -/

/-- `WEBBOOK_SHOMATE_INTERVALS` and its relatives: `BASE` and `BASE_0` to `BASE_5`
(heat_capacity.py 166, 574-576). -/
def internal : Name → Bool
  | .whole => true
  | .part k => decide (k < 6)

/-- `as_string` without parameters (t_dependent_property.py 1655-1677): the correlations printed
and whether the piecewise method over them is printed. -/
def printed (b : Built α) : List (Name × Piece α) × Option (List Name × List ℚ) :=
  (b.corrs.filter fun p => !internal p.1, if internal .whole then none else b.pw)

theorem mem_named (d : List (Piece α)) (p : Name × Piece α) (h : p ∈ named d) :
    ∃ i < d.length, p.1 = pieceName d.length i := by
  unfold named at h
  obtain ⟨i, hi, rfl⟩ := List.mem_mapIdx.1 h
  exact ⟨i, hi, rfl⟩

/-- **C148 (database pieces are not printed).** Up to five pieces, none of the correlations taken
from the database is printed as if it were the user's. -/
theorem C148_printed (d : List (Piece α)) (h : d.length ≤ 5) (b : Built α)
    (hb : b.corrs.Perm (named d)) : printed b = ([], none) := by
  unfold printed
  refine Prod.ext ?_ ?_
  · simp only
    rw [List.filter_eq_nil_iff]
    intro p hp
    obtain ⟨i, hi, he⟩ := mem_named d p (hb.mem_iff.1 hp)
    rw [he]
    unfold pieceName
    split_ifs
    · simp [internal]
    · simp [internal]; omega
  · rfl

/-- Six pieces that meet, 100 K each. -/
def six : List (Piece ℕ) :=
  [⟨100, 200, 0⟩, ⟨200, 300, 1⟩, ⟨300, 400, 2⟩, ⟨400, 500, 3⟩, ⟨500, 600, 4⟩, ⟨600, 700, 5⟩]

/-- **C148 fails.** The withheld names are numbered from zero and the pieces from one, so a sixth
piece is printed as the user's correlation while the other five and the method over them are not;
the name numbered zero belongs to no piece. -/
theorem C148_sixth_fails :
    ((gas six).map printed = some ([(.part 6, ⟨600, 700, 5⟩)], none)) ∧
      internal (.part 0) = true ∧ ∀ (d : List (Piece α)), ∀ p ∈ named d, p.1 ≠ .part 0 := by
  refine ⟨by decide +kernel, rfl, ?_⟩
  intro d p hp hc
  obtain ⟨i, -, he⟩ := mem_named d p hp
  rw [hc] at he
  unfold pieceName at he
  split_ifs at he
  simp at he

example : (gas (six.take 5)).map printed = some ([], none) := by decide +kernel

/-! ## Limits of the Joback polynomial -/

/-- Comparisons of floats where `none` is not-a-number: always false. -/
def fle : Option ℚ → Option ℚ → Bool
  | some a, some b => decide (a ≤ b)
  | _, _ => false

/-- heat_capacity.py 345-347: `Tmin = Tm`, `Tmax = 2.5*Tc` or 10000 K; the upper limit only is
tested for not-a-number. -/
def joback (Tm Tc : Option ℚ) : Option ℚ × Option ℚ :=
  (Tm, match Tc with
    | some t => some (t * (5 / 2))
    | none => some 10000)

/-- `T_low <= T <= T_high` (t_dependent_property.py 3048). -/
def inRange (l : Option ℚ × Option ℚ) (T : ℚ) : Bool := fle l.1 (some T) && fle (some T) l.2

/-- Which end the value is extrapolated from (3144-3167) with the default `in_range='error'`;
`none` is the exception, which 3061-3062 turns into no value. -/
def side (l : Option ℚ × Option ℚ) (T : ℚ) : Option Bool :=
  if fle (some T) l.1 then some true
  else if fle l.2 (some T) then some false
  else none

/-- **C148 (known melting point).** With a melting point the polynomial is used exactly from it up
to the upper limit, and every other temperature is extrapolated from the nearer end. -/
theorem C148_joback (Tm T : ℚ) (Tc : Option ℚ) :
    let up : ℚ := match Tc with | some t => 5 / 2 * t | none => 10000
    (inRange (joback (some Tm) Tc) T = true ↔ Tm ≤ T ∧ T ≤ up) ∧
      (T < Tm → side (joback (some Tm) Tc) T = some true) ∧
      (Tm < T → up < T → side (joback (some Tm) Tc) T = some false) := by
  intro up
  have hup : (joback (some Tm) Tc).2 = some up := by
    cases Tc <;> simp [joback, up, mul_comm]
  have hlo : (joback (some Tm) Tc).1 = some Tm := rfl
  refine ⟨?_, ?_, ?_⟩
  · simp [inRange, hup, hlo, fle]
  · intro h; simp [side, hlo, fle, h.le]
  · intro h1 h2
    simp [side, hlo, hup, fle, h1, h2.le]

example : inRange (joback (some 200) (some 400)) 1000 = true ∧
    side (joback (some 200) (some 400)) 100 = some true := by decide +kernel

/-- **C148 fails.** Without a melting point the method is never within range: below its upper limit
it has no value at all although every coefficient is known, and above it is extrapolated. -/
theorem C148_joback_fails (Tc : Option ℚ) (T : ℚ) :
    inRange (joback none Tc) T = false ∧
      (∀ t, (joback none Tc).2 = some t → (T < t → side (joback none Tc) T = none) ∧
        (t ≤ T → side (joback none Tc) T = some false)) := by
  refine ⟨by simp [inRange, joback, fle], ?_⟩
  intro t ht
  refine ⟨fun h => ?_, fun h => ?_⟩
  · simp [side, ht, fle, show (joback none Tc).1 = none from rfl, h]
  · simp [side, ht, fle, show (joback none Tc).1 = none from rfl, h]

/-! ## Exported arguments (`as_method_kwargs`) -/

/-- An object as far as 1704-1782 read it.  `π` are parameters of a correlation, `τ` tables. -/
structure Obj (N π τ : Type*) where
  method : Option N
  piecewise : List (N × (List N × List ℚ))
  tables : List (N × τ)
  corrs : List (N × π)
  fits : List (N × π)

/-- The keyword arguments returned; `plain` marks the last branch (name, limits and CAS only). -/
inductive Kw (N π τ : Type*)
  | empty
  | pieces (name : N) (parts : List N × List ℚ) (corrs : List (N × π))
  | table (name : N) (t : τ)
  | corr (name : N) (p : π)
  | fit (name : N) (p : π)
  | plain (name : N)

variable {N π τ : Type*} [DecidableEq N]

/-- Look a name up in a dictionary. -/
def get? {β : Type*} (d : List (N × β)) (k : N) : Option β := (d.find? fun p => p.1 = k).map (·.2)

/-- `as_method_kwargs` (1685-1782). -/
def kwargs (o : Obj N π τ) (dataOnly : Bool) : Kw N π τ :=
  match o.method with
  | none => .empty
  | some m =>
    match get? o.piecewise m with
    | some parts => .pieces m parts
        (parts.1.filterMap fun s => (get? o.corrs s).map fun p => (s, p))
    | none =>
      match get? o.tables m with
      | some t => .table m t
      | none =>
        match get? o.corrs m with
        | some p => .corr m p
        | none =>
          match get? o.fits m with
          | some p => .fit m p
          | none => if dataOnly then .empty else .plain m

/-- The constructor given these arguments without loading any data: the object rebuilt, or `none`
when `add_piecewise_method` does not find a part (3611-3613). -/
def rebuild (k : Kw N π τ) : Option (Obj N π τ) :=
  match k with
  | .empty => some ⟨none, [], [], [], []⟩
  | .pieces m parts cs =>
      if parts.1.all (fun s => (get? cs s).isSome) then some ⟨some m, [(m, parts)], [], cs, []⟩
      else none
  | .table m t => some ⟨some m, [], [(m, t)], [], []⟩
  | .corr m p => some ⟨some m, [], [], [(m, p)], []⟩
  | .fit m p => some ⟨some m, [], [], [], [(m, p)]⟩
  | .plain _ => none

/-- What evaluating the current method reads: a table, a correlation, a fit, or the ordered parts
with the parameters of each. -/
inductive Reads (N π τ : Type*)
  | parts (T : List ℚ) (ps : List (Option π))
  | table (t : τ)
  | corr (p : π)
  | fit (p : π)

/-- The data behind the current method.  Names are unique over the kinds of methods (3614-3615 and
its siblings), so the order of the tests is immaterial. -/
def reads (o : Obj N π τ) : Option (Reads N π τ) :=
  o.method.bind fun m =>
    match get? o.piecewise m with
    | some parts => some (.parts parts.2 (parts.1.map (get? o.corrs)))
    | none =>
      match get? o.tables m with
      | some t => some (.table t)
      | none =>
        match get? o.corrs m with
        | some p => some (.corr p)
        | none => (get? o.fits m).map .fit

theorem get?_filterMap (cs : List (N × π)) (l : List N) (s : N) (hs : s ∈ l) :
    get? (l.filterMap fun s => (get? cs s).map fun p => (s, p)) s = get? cs s := by
  induction l with
  | nil => cases hs
  | cons a l ih =>
    rw [List.filterMap_cons]
    by_cases ha : a = s
    · subst ha
      cases hg : get? cs a with
      | none =>
        simp only [Option.map_none]
        by_cases hm : a ∈ l
        · rw [ih hm, hg]
        · have key : ∀ L : List (N × π), (∀ p ∈ L, p.1 ≠ a) → get? L a = none := by
            intro L hL
            unfold get?
            rw [Option.map_eq_none_iff, List.find?_eq_none]
            intro p hp
            simpa using hL p hp
          apply key
          intro p hp
          obtain ⟨x, hx, he⟩ := List.mem_filterMap.1 hp
          cases hgx : get? cs x with
          | none => rw [hgx] at he; simp at he
          | some q =>
            rw [hgx] at he
            simp only [Option.map_some, Option.some.injEq] at he
            subst he
            rintro rfl
            exact hm hx
      | some q => simp [get?]
    · have hm : s ∈ l := by
        rcases List.mem_cons.1 hs with h | h
        · exact absurd h.symm ha
        · exact h
      cases hg : get? cs a with
      | none => simpa using ih hm
      | some q =>
        simp only [Option.map_some]
        have : get? ((a, q) :: (l.filterMap fun s => (get? cs s).map fun p => (s, p))) s
            = get? (l.filterMap fun s => (get? cs s).map fun p => (s, p)) s := by
          simp [get?, List.find?_cons, ha]
        rw [this]
        exact ih hm

/-- **C148 (exported arguments).** For a method given by a table, a correlation, a fit, or parts
which are all correlations, an object rebuilt from the exported arguments alone reads the same
data. -/
theorem C148_export (o : Obj N π τ) (dataOnly : Bool) (m : N) (hm : o.method = some m)
    (hp : ∀ parts, get? o.piecewise m = some parts → ∀ s ∈ parts.1, (get? o.corrs s).isSome)
    (hk : (reads o).isSome) :
    ∃ o', rebuild (kwargs o dataOnly) = some o' ∧ o'.method = some m ∧ reads o' = reads o := by
  unfold kwargs
  rw [hm]
  simp only
  unfold reads at hk ⊢
  rw [hm] at hk ⊢
  simp only [Option.bind_some] at hk ⊢
  cases h1 : get? o.piecewise m with
  | some parts =>
    have hall : parts.1.all (fun s => (get? (parts.1.filterMap fun s =>
        (get? o.corrs s).map fun p => (s, p)) s).isSome) = true := by
      rw [List.all_eq_true]
      intro s hs
      rw [get?_filterMap _ _ _ hs]
      exact hp parts h1 s hs
    refine ⟨⟨some m, [(m, parts)], [], parts.1.filterMap fun s =>
        (get? o.corrs s).map fun p => (s, p), []⟩, ?_, rfl, ?_⟩
    · simp only [rebuild]
      rw [if_pos hall]
    · simp only [Option.bind_some]
      have hg : get? [(m, parts)] m = some parts := by simp [get?]
      rw [hg]
      simp only [Option.some.injEq, Reads.parts.injEq, true_and]
      apply List.map_congr_left
      intro s hs
      exact get?_filterMap _ _ _ hs
  | none =>
    rw [h1] at hk
    simp only at hk ⊢
    cases h2 : get? o.tables m with
    | some t => exact ⟨_, rfl, rfl, by simp [get?]⟩
    | none =>
      rw [h2] at hk
      simp only at hk ⊢
      cases h3 : get? o.corrs m with
      | some p => exact ⟨_, rfl, rfl, by simp [get?]⟩
      | none =>
        rw [h3] at hk
        simp only at hk ⊢
        cases h4 : get? o.fits m with
        | some p => exact ⟨_, rfl, rfl, by simp [get?]⟩
        | none => rw [h4] at hk; simp at hk

/-- Two correlations joined at 500 K. -/
def joined : Obj String ℕ ℕ :=
  ⟨some "J", [("J", (["A", "B"], [300, 500, 900]))], [("t", 7)], [("A", 1), ("B", 2)], []⟩

example : (reads joined).isSome ∧
    ∀ parts, get? joined.piecewise "J" = some parts → ∀ s ∈ parts.1, (get? joined.corrs s).isSome := by
  refine ⟨by decide +kernel, ?_⟩
  intro parts h s hs
  have : parts = (["A", "B"], [300, 500, 900]) := by
    have h' : get? joined.piecewise "J" = some (["A", "B"], [300, 500, 900]) := by decide +kernel
    rw [h'] at h; exact (Option.some.inj h).symm
  subst this
  simp only [List.mem_cons, List.not_mem_nil, or_false] at hs
  rcases hs with rfl | rfl <;> decide +kernel

/-- **C148 fails.** A piecewise method over a table exports its list of parts without the table,
and the constructor then raises because the part is unknown. -/
theorem C148_export_fails :
    let o : Obj String ℕ ℕ :=
      ⟨some "J", [("J", (["A", "t"], [300, 500, 900]))], [("t", 7)], [("A", 1)], []⟩
    kwargs o false = .pieces "J" (["A", "t"], [300, 500, 900]) [("A", 1)] ∧
      rebuild (kwargs o false) = none := by
  refine ⟨rfl, rfl⟩

/-- **C148 (nothing selected, nothing to export).** Without a method, or with data only and a method
that is not data, nothing is exported. -/
theorem C148_export_empty (o : Obj N π τ) :
    (o.method = none → ∀ b, kwargs o b = .empty) ∧
      (∀ m, o.method = some m → reads o = none →
        kwargs o true = .empty ∧ kwargs o false = .plain m) := by
  refine ⟨fun h b => by simp [kwargs, h], ?_⟩
  intro m hm hr
  unfold reads at hr
  rw [hm] at hr
  simp only [Option.bind_some] at hr
  unfold kwargs
  rw [hm]
  simp only
  cases h1 : get? o.piecewise m with
  | some parts => rw [h1] at hr; simp at hr
  | none =>
    rw [h1] at hr
    simp only at hr ⊢
    cases h2 : get? o.tables m with
    | some t => rw [h2] at hr; simp at hr
    | none =>
      rw [h2] at hr
      simp only at hr ⊢
      cases h3 : get? o.corrs m with
      | some p => rw [h3] at hr; simp at hr
      | none =>
        rw [h3] at hr
        simp only at hr ⊢
        cases h4 : get? o.fits m with
        | some p => rw [h4] at hr; simp at hr
        | none => exact ⟨rfl, rfl⟩

example : kwargs (⟨some "D", [], [], [], []⟩ : Obj String ℕ ℕ) true = .empty ∧
    kwargs (⟨some "D", [], [], [], []⟩ : Obj String ℕ ℕ) false = .plain "D" := ⟨rfl, rfl⟩

/-! ## Limits printed by `as_string` -/

/-- 1605, 1633-1678: `single_method = len(self.all_methods)` is used as a truth value, so the limits
of the current method are printed only when no correlation or fit is printed or there is no method
at all. -/
def printsLimits (methods : ℕ) (anyPrinted withLimits selected : Bool) : Bool :=
  let single := decide (methods ≠ 0)
  let inStr := anyPrinted && single
  withLimits && selected && !inStr

/-- **C148 (limits printed).** With nothing printed that carries limits, the limits of the selected
method are printed. -/
theorem C148_limits (n : ℕ) : printsLimits n false true true = true := by simp [printsLimits]

/-- **C148 fails.** With several methods, of which one prints its parameters, the limits of the
selected method are left out whichever it is: the count of methods is tested for being nonzero
instead of one. -/
theorem C148_limits_fails (n : ℕ) (h : 1 < n) : printsLimits n true true true = false := by
  simp [printsLimits]; omega

example : printsLimits 3 true true true = false := C148_limits_fails 3 (by norm_num)

end Verif.CpPieces
