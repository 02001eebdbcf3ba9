import Mathlib.Topology.Order.IntermediateValue
import Mathlib.Tactic
import Verif.Flash.Pure

/-!
# C159: vapor fraction and an energy of one component (`thermo/flash/flash_pure_vls.py` 1048-1079, 1106-1327)

C94 has the intervals between whose ends the specified value is, the number of the interval used with two and more, the slope along the
saturation curve, and the guess. Here: the whole choice of the interval, including the search for an extremum inside an interval
(1178-1246, 1258-1291), the search for the temperature and the state which is returned (1293-1327, `flash_base.py` 443-451), and the
data which are made at the first call (1048-1079, 1109-1110).

A grid is a list of temperatures with the value of the property of the mixture of saturated phases and its slope. The indices of the code
are the nodes themselves, so nodes are taken as distinct. Solvers are what they evaluate and what they return.
-/

namespace Verif.VaporFraction

open Verif.FlashPure

/-! ## Slopes of the grid (1145-1158) -/

/-- Slopes; `none` in the data is a division by zero, where the slope before is used; `none` in the result is an index error. -/
def slopes : List (Option ℝ) → Option ℝ → Option (List ℝ)
  | [], _ => some []
  | some d :: xs, _ => (slopes xs (some d)).map (d :: ·)
  | none :: _, none => none
  | none :: xs, some d => (slopes xs (some d)).map (d :: ·)

/-- **C159.** Slopes that can be computed are used as they are. -/
theorem C159_slopes (ds : List ℝ) (p : Option ℝ) : slopes (ds.map some) p = some ds := by
  induction ds generalizing p with
  | nil => rfl
  | cons d ds ih => simp [slopes, ih]

/-- **C159.** At a last point which is critical the slope is the one before. A grid whose first point is critical is an exception. -/
theorem C159_critical (ds : List ℝ) (d : ℝ) (p : Option ℝ) (xs : List (Option ℝ)) :
    slopes (ds.map some ++ [some d, none]) p = some (ds ++ [d, d]) ∧ slopes (none :: xs) none = none := by
  refine ⟨?_, rfl⟩
  induction ds generalizing p with
  | nil => rfl
  | cons e ds ih => simp [slopes, ih]

example : slopes [some 1, some 2, none] none = some [1, 2, 2] := rfl

/-! ## The interval (1160-1246) -/

/-- A point of the grid: temperature, value, slope. -/
structure Node where
  (T v d : ℝ)

/-- Neighbours. -/
def pairs : List Node → List (Node × Node)
  | a :: b :: xs => (a, b) :: pairs (b :: xs)
  | _ => []

/-- Line 1161. -/
def Bounds (spec : ℝ) (p : Node × Node) : Prop := (p.2.v ≤ spec ∧ spec ≤ p.1.v) ∨ (p.1.v ≤ spec ∧ spec ≤ p.2.v)

/-- Line 1165. -/
def Turns (p : Node × Node) : Prop := p.2.d * p.1.d < 0

open Classical in
/-- `bounding_idx`. -/
noncomputable def bounding (spec : ℝ) (xs : List Node) : List (Node × Node) := (pairs xs).filter fun p => Bounds spec p

open Classical in
/-- `d_sign_changes_idx`. -/
noncomputable def turning (xs : List Node) : List (Node × Node) := (pairs xs).filter fun p => Turns p

/-- Exceptions. -/
inductive Err
  /-- `ValueError("What")` (1246) -/
  | what
  /-- `IndexError` (1220) -/
  | index
  /-- `KeyError` or `IndexError` (1238-1239) -/
  | request
  /-- no extremum found (1290) -/
  | extremum
  /-- `ZeroDivisionError` (1248-1249) -/
  | zero
deriving DecidableEq

/-- An interval with the values and slopes used for the guess. -/
structure Interval where
  (lo hi vlo vhi dlo dhi : ℝ)

/-- The interval between two nodes (1181-1185, 1196-1203, 1220-1224, 1239-1243). -/
def ofPair (p : Node × Node) : Interval := ⟨p.1.T, p.2.T, p.1.v, p.2.v, p.1.d, p.2.d⟩

/-- `high` (1214): the value is between the extremum and the upper end. -/
def High (spec v0 : ℝ) (p : Node × Node) : Prop := (v0 < spec ∧ spec < p.2.v) ∨ (p.2.v < spec ∧ spec < v0)

/-- `low` (1216): the value is between the lower end and the extremum. -/
def Low (spec v0 : ℝ) (p : Node × Node) : Prop := (p.1.v < spec ∧ spec < v0) ∨ (v0 < spec ∧ spec < p.1.v)

open Classical in
/-- Lines 1207-1232. `root` is the extremum with the value found there. -/
noncomputable def atTurn (spec : ℝ) (want : Want) (B : List (Node × Node)) (p : Node × Node) (root : Option (ℝ × ℝ)) :
    Except Err Interval :=
  match root with
  | none => .error .extremum
  | some (T0, v0) =>
    if ¬ Low spec v0 p ∧ ¬ High spec v0 p then
      match B with
      | [] => .error .index
      | q :: _ => .ok (ofPair q)
    else if (High spec v0 p ∧ want = .high) ∨ ¬ Low spec v0 p then .ok ⟨T0, p.2.T, v0, p.2.v, p.2.d, p.2.d⟩
    else .ok ⟨p.1.T, T0, p.1.v, v0, p.1.d, p.1.d⟩

open Classical in
/-- Lines 1178-1246. `extremum` is `_VF_HSGUA_der_root` on an interval. -/
noncomputable def select (spec : ℝ) (want : Want) (extremum : ℝ → ℝ → Option (ℝ × ℝ)) (xs : List Node) : Except Err Interval :=
  match bounding spec xs, turning xs with
  | [], [] => .error .what
  | [], p :: _ => atTurn spec want [] p (extremum p.1.T p.2.T)
  | [q], D =>
    if D = [] ∨ [q] ≠ D then .ok (ofPair q) else atTurn spec want [q] q (extremum q.1.T q.2.T)
  | B, _ => match interval want B.length with
    | none => .error .request
    | some k => match B[k]? with
      | none => .error .request
      | some q => .ok (ofPair q)

/-- The nodes lie on the graph of a function, in order of temperature. -/
def OnGraph (v : ℝ → ℝ) (xs : List Node) : Prop := xs.Pairwise (fun a b => a.T < b.T) ∧ ∀ a ∈ xs, a.v = v a.T

/-- The extremum is in the interval and its value is the one of the function there. -/
def Exact (v : ℝ → ℝ) (extremum : ℝ → ℝ → Option (ℝ × ℝ)) : Prop :=
  ∀ a b T0 v0, a < b → extremum a b = some (T0, v0) → a ≤ T0 ∧ T0 ≤ b ∧ v0 = v T0

theorem pairs_mem {xs : List Node} {p : Node × Node} (h : p ∈ pairs xs) : p.1 ∈ xs ∧ p.2 ∈ xs := by
  induction xs with
  | nil => simp [pairs] at h
  | cons a xs ih =>
    cases xs with
    | nil => simp [pairs] at h
    | cons b xs =>
      rw [pairs, List.mem_cons] at h
      rcases h with rfl | h
      · simp
      · obtain ⟨h1, h2⟩ := ih h
        exact ⟨List.mem_cons_of_mem _ h1, List.mem_cons_of_mem _ h2⟩

theorem pairs_lt {v : ℝ → ℝ} {xs : List Node} (hg : OnGraph v xs) {p : Node × Node} (h : p ∈ pairs xs) : p.1.T < p.2.T := by
  obtain ⟨hg, -⟩ := hg
  induction xs with
  | nil => simp [pairs] at h
  | cons a xs ih =>
    cases xs with
    | nil => simp [pairs] at h
    | cons b xs =>
      rw [pairs, List.mem_cons] at h
      rcases h with rfl | h
      · exact (List.pairwise_cons.mp hg).1 b (by simp)
      · exact ih h (List.pairwise_cons.mp hg).2

theorem between {v : ℝ → ℝ} (hv : Continuous v) {a b spec : ℝ} (hab : a ≤ b) (h : (v b ≤ spec ∧ spec ≤ v a) ∨ (v a ≤ spec ∧ spec ≤ v b)) :
    ∃ t, a ≤ t ∧ t ≤ b ∧ v t = spec := by
  rcases h with h | h
  · obtain ⟨t, ht, e⟩ := intermediate_value_Icc' hab hv.continuousOn ⟨h.1, h.2⟩
    exact ⟨t, ht.1, ht.2, e⟩
  · obtain ⟨t, ht, e⟩ := intermediate_value_Icc hab hv.continuousOn ⟨h.1, h.2⟩
    exact ⟨t, ht.1, ht.2, e⟩

/-- An interval is an interval of temperature, its values are the values at its ends, and they enclose the specified one. -/
def Encloses (v : ℝ → ℝ) (spec : ℝ) (i : Interval) : Prop :=
  i.lo ≤ i.hi ∧ i.vlo = v i.lo ∧ i.vhi = v i.hi ∧ ((i.vhi ≤ spec ∧ spec ≤ i.vlo) ∨ (i.vlo ≤ spec ∧ spec ≤ i.vhi))

theorem ofPair_encloses {v : ℝ → ℝ} {xs : List Node} (hg : OnGraph v xs) {spec : ℝ} {q : Node × Node} (h : q ∈ bounding spec xs) :
    Encloses v spec (ofPair q) := by
  obtain ⟨h1, h2⟩ := List.mem_filter.mp h
  obtain ⟨m1, m2⟩ := pairs_mem h1
  have h3 : Bounds spec q := by simpa only [decide_eq_true_eq] using h2
  exact ⟨(pairs_lt hg h1).le, hg.2 _ m1, hg.2 _ m2, h3⟩

theorem atTurn_encloses {v : ℝ → ℝ} {xs : List Node} (hg : OnGraph v xs) {spec : ℝ} {want : Want} {B : List (Node × Node)}
    (hB : ∀ q ∈ B, q ∈ bounding spec xs) {p : Node × Node} (hp : p ∈ pairs xs) {ext : ℝ → ℝ → Option (ℝ × ℝ)} (he : Exact v ext)
    {i : Interval} (h : atTurn spec want B p (ext p.1.T p.2.T) = .ok i) : Encloses v spec i := by
  have hlt := pairs_lt hg hp
  obtain ⟨m1, m2⟩ := pairs_mem hp
  have e1 := hg.2 _ m1
  have e2 := hg.2 _ m2
  cases hr : ext p.1.T p.2.T with
  | none => rw [hr] at h; simp [atTurn] at h
  | some r =>
    obtain ⟨T0, v0⟩ := r
    obtain ⟨b1, b2, b3⟩ := he _ _ _ _ hlt hr
    rw [hr] at h
    unfold atTurn at h
    dsimp only at h
    by_cases hn : ¬ Low spec v0 p ∧ ¬ High spec v0 p
    · rw [if_pos hn] at h
      cases B with
      | nil => simp at h
      | cons q B =>
        simp only [Except.ok.injEq] at h
        subst h
        exact ofPair_encloses hg (hB q (by simp))
    · rw [if_neg hn] at h
      by_cases hc : (High spec v0 p ∧ want = .high) ∨ ¬ Low spec v0 p
      · rw [if_pos hc] at h
        simp only [Except.ok.injEq] at h
        subst h
        have hh : High spec v0 p := by
          rcases hc with hc | hc
          · exact hc.1
          · by_contra hh
            exact hn ⟨hc, hh⟩
        refine ⟨b2, b3, e2, ?_⟩
        dsimp only
        rcases hh with hh | hh
        · exact Or.inr ⟨hh.1.le, hh.2.le⟩
        · exact Or.inl ⟨hh.1.le, hh.2.le⟩
      · rw [if_neg hc] at h
        simp only [Except.ok.injEq] at h
        subst h
        have hl : Low spec v0 p := by
          by_contra hl
          exact hc (Or.inr hl)
        refine ⟨b1, e1, b3, ?_⟩
        dsimp only
        rcases hl with hl | hl
        · exact Or.inr ⟨hl.1.le, hl.2.le⟩
        · exact Or.inl ⟨hl.1.le, hl.2.le⟩

/-- **C159.** If the nodes lie on the graph of a continuous function and extrema come with the values there, the interval used contains
a temperature at which the function has the specified value. -/
theorem C159_sound {v : ℝ → ℝ} (hv : Continuous v) {xs : List Node} (hg : OnGraph v xs) {ext : ℝ → ℝ → Option (ℝ × ℝ)}
    (he : Exact v ext) {spec : ℝ} {want : Want} {i : Interval} (h : select spec want ext xs = .ok i) :
    Encloses v spec i ∧ ∃ t, i.lo ≤ t ∧ t ≤ i.hi ∧ v t = spec := by
  have key : Encloses v spec i := by
    unfold select at h
    have hB : ∀ q ∈ bounding spec xs, q ∈ bounding spec xs := fun _ h => h
    have hD : ∀ p ∈ turning xs, p ∈ pairs xs := fun p hp => (List.mem_filter.mp hp).1
    generalize hb : bounding spec xs = B at h hB
    generalize turning xs = D at h hD
    rw [← hb] at hB
    match B, D with
    | [], [] => simp at h
    | [], p :: _ => exact atTurn_encloses hg (by simp) (hD p (by simp)) he h
    | [q], D =>
      dsimp only at h
      have hq : q ∈ bounding spec xs := by rw [hb]; simp
      split_ifs at h with hc
      · simp only [Except.ok.injEq] at h
        subst h
        exact ofPair_encloses hg hq
      · refine atTurn_encloses hg ?_ (List.mem_filter.mp hq).1 he h
        intro q' hq'
        rw [List.mem_singleton] at hq'
        rw [hq']
        exact hq
    | a :: b :: B, D =>
      dsimp only at h
      cases hk : interval want (a :: b :: B).length with
      | none => rw [hk] at h; simp at h
      | some k =>
        rw [hk] at h
        dsimp only at h
        cases hq : (a :: b :: B)[k]? with
        | none => rw [hq] at h; simp at h
        | some q =>
          rw [hq] at h
          simp only [Except.ok.injEq] at h
          subst h
          refine ofPair_encloses hg ?_
          rw [hb]
          exact List.mem_of_getElem? hq
  refine ⟨key, ?_⟩
  obtain ⟨h1, h2, h3, h4⟩ := key
  rw [h2, h3] at h4
  exact between hv h1 h4

example : ∃ (v : ℝ → ℝ) (xs : List Node) (ext : ℝ → ℝ → Option (ℝ × ℝ)), Continuous v ∧ OnGraph v xs ∧ Exact v ext
    ∧ select (1 / 4) .high ext xs = .ok ⟨1, 2, 0, 1, 2, 2⟩ := by
  refine ⟨fun t => (t - 1) ^ 2, [⟨0, 1, -2⟩, ⟨2, 1, 2⟩], fun a b => if a ≤ 1 ∧ 1 ≤ b then some (1, 0) else none, by fun_prop, ?_, ?_, ?_⟩
  · constructor
    · norm_num
    · intro a ha
      simp only [List.mem_cons, List.not_mem_nil, or_false] at ha
      rcases ha with rfl | rfl <;> norm_num
  · intro a b T0 v0 _ h
    dsimp only at h
    split_ifs at h with hc
    simp only [Option.some.injEq, Prod.mk.injEq] at h
    obtain ⟨rfl, rfl⟩ := h
    exact ⟨hc.1, hc.2, by norm_num⟩
  · norm_num [select, bounding, turning, pairs, Bounds, Turns, atTurn, High, Low]

/-- **C159.** If the only pair of nodes around the value is also the only one between which the slope changes its sign, the extremum cuts the interval: the
part with the value is used, whichever solution is asked for. -/
theorem C159_cut {spec : ℝ} {xs : List Node} {q : Node × Node} (hB : bounding spec xs = [q]) (hD : turning xs = [q]) {ext : ℝ → ℝ → Option (ℝ × ℝ)}
    {T0 v0 : ℝ} (he : ext q.1.T q.2.T = some (T0, v0)) (want : Want) :
    (High spec v0 q → select spec want ext xs = .ok ⟨T0, q.2.T, v0, q.2.v, q.2.d, q.2.d⟩)
      ∧ (Low spec v0 q → select spec want ext xs = .ok ⟨q.1.T, T0, q.1.v, v0, q.1.d, q.1.d⟩) := by
  have hb : Bounds spec q := by
    have : q ∈ bounding spec xs := by rw [hB]; simp
    simpa only [decide_eq_true_eq] using (List.mem_filter.mp this).2
  have no : High spec v0 q → Low spec v0 q → False := by
    rintro (h | h) (l | l) <;> rcases hb with b | b <;> linarith [h.1, h.2, l.1, l.2, b.1, b.2]
  have e : select spec want ext xs = atTurn spec want [q] q (some (T0, v0)) := by
    unfold select
    rw [hB, hD]
    simp [he]
  rw [e]
  unfold atTurn
  dsimp only
  constructor
  · intro h
    rw [if_neg (fun hh => hh.2 h), if_pos (Or.inr fun l => no h l)]
  · intro l
    rw [if_neg (fun hh => hh.1 l), if_neg]
    rintro (h | h)
    · exact no h.1 l
    · exact h l

example : bounding (1 / 2) [⟨0, 1, -2⟩, ⟨3, 4, 4⟩, ⟨4, 9, 6⟩] = [] ∧ bounding 2 [⟨0, 1, -2⟩, ⟨3, 4, 4⟩, ⟨4, 9, 6⟩] = [(⟨0, 1, -2⟩, ⟨3, 4, 4⟩)]
    ∧ turning [⟨0, 1, -2⟩, ⟨3, 4, 4⟩, ⟨4, 9, 6⟩] = [(⟨0, 1, -2⟩, ⟨3, 4, 4⟩)] ∧ High 2 0 (⟨0, 1, -2⟩, ⟨3, 4, 4⟩) := by
  norm_num [bounding, turning, pairs, Bounds, Turns, High]

/-! ## Which solution -/

/-- The function rises or falls between neighbouring nodes. -/
def Piecewise (v : ℝ → ℝ) (xs : List Node) : Prop :=
  ∀ p ∈ pairs xs, MonotoneOn v (Set.Icc p.1.T p.2.T) ∨ AntitoneOn v (Set.Icc p.1.T p.2.T)

/-- A temperature between two nodes of the grid. -/
def Within (xs : List Node) (t : ℝ) : Prop := ∃ a ∈ xs, ∃ b ∈ xs, a.T < b.T ∧ a.T ≤ t ∧ t ≤ b.T

theorem within_pair {xs : List Node} (hs : xs.Pairwise fun a b => a.T < b.T) {t : ℝ} (h : Within xs t) :
    ∃ p ∈ pairs xs, p.1.T ≤ t ∧ t ≤ p.2.T := by
  induction xs with
  | nil => obtain ⟨a, ha, _⟩ := h; simp at ha
  | cons c ys ih =>
    obtain ⟨a, ha, b, hb, hab, h1, h2⟩ := h
    cases ys with
    | nil =>
      rw [List.mem_singleton] at ha hb
      subst ha; subst hb
      exact absurd hab (lt_irrefl _)
    | cons d ys =>
      obtain ⟨hc, hs'⟩ := List.pairwise_cons.mp hs
      have hca : c.T ≤ a.T := by
        rcases List.mem_cons.mp ha with rfl | ha
        · exact le_rfl
        · exact (hc a ha).le
      by_cases hd : t ≤ d.T
      · exact ⟨(c, d), by simp [pairs], hca.trans h1, hd⟩
      · push Not at hd
        have hbd : b ∈ d :: ys := by
          rcases List.mem_cons.mp hb with rfl | hb
          · exact absurd (h2.trans_lt' hd) (lt_asymm (hc d (by simp)))
          · exact hb
        obtain ⟨p, hp, hp'⟩ := ih hs' ⟨d, by simp, b, hbd, hd.trans_le h2, hd.le, h2⟩
        exact ⟨p, by rw [pairs]; exact List.mem_cons_of_mem _ hp, hp'⟩

theorem solution_bounding {v : ℝ → ℝ} {xs : List Node} (hg : OnGraph v xs) (hp : Piecewise v xs) {spec t : ℝ} (h : Within xs t)
    (ht : v t = spec) : ∃ p ∈ bounding spec xs, p.1.T ≤ t ∧ t ≤ p.2.T := by
  obtain ⟨p, hm, h1, h2⟩ := within_pair hg.1 h
  refine ⟨p, List.mem_filter.mpr ⟨hm, ?_⟩, h1, h2⟩
  simp only [decide_eq_true_eq]
  obtain ⟨m1, m2⟩ := pairs_mem hm
  have hlt := (pairs_lt hg hm).le
  unfold Bounds
  rw [hg.2 _ m1, hg.2 _ m2, ← ht]
  rcases hp p hm with hmo | hmo
  · exact Or.inr ⟨hmo ⟨le_rfl, hlt⟩ ⟨h1, h2⟩ h1, hmo ⟨h1, h2⟩ ⟨hlt, le_rfl⟩ h2⟩
  · exact Or.inl ⟨hmo ⟨h1, h2⟩ ⟨hlt, le_rfl⟩ h2, hmo ⟨le_rfl, hlt⟩ ⟨h1, h2⟩ h1⟩

theorem pairs_sorted {xs : List Node} (hs : xs.Pairwise fun a b => a.T < b.T) :
    (pairs xs).Pairwise fun p q => p.1.T ≤ q.1.T ∧ p.2.T ≤ q.2.T := by
  induction xs with
  | nil => simp [pairs]
  | cons a xs ih =>
    cases xs with
    | nil => simp [pairs]
    | cons b xs =>
      obtain ⟨ha, hs'⟩ := List.pairwise_cons.mp hs
      rw [pairs, List.pairwise_cons]
      refine ⟨fun q hq => ?_, ih hs'⟩
      obtain ⟨m1, m2⟩ := pairs_mem hq
      refine ⟨(ha _ m1).le, ?_⟩
      dsimp only
      rcases List.mem_cons.mp m2 with h | h
      · rw [h]
      · exact ((List.pairwise_cons.mp hs').1 _ h).le

theorem bounding_sorted {v : ℝ → ℝ} {xs : List Node} (hg : OnGraph v xs) (spec : ℝ) :
    (bounding spec xs).Pairwise fun p q => p.1.T ≤ q.1.T ∧ p.2.T ≤ q.2.T :=
  (pairs_sorted hg.1).filter _

theorem select_high {spec : ℝ} (ext : ℝ → ℝ → Option (ℝ × ℝ)) {xs : List Node} (hD : turning xs = []) {q : Node × Node}
    (hq : (bounding spec xs).getLast? = some q) : select spec .high ext xs = .ok (ofPair q) := by
  unfold select
  rw [hD]
  generalize bounding spec xs = B at hq
  match B with
  | [] => simp at hq
  | [a] =>
    simp only [List.getLast?_singleton, Option.some.injEq] at hq
    simp [hq]
  | a :: b :: B =>
    dsimp only
    obtain ⟨hh, -⟩ := C94_interval (a :: b :: B).length (by simp)
    rw [List.getLast?_eq_getElem?] at hq
    rw [hh]
    dsimp only
    rw [hq]

theorem select_low {spec : ℝ} (ext : ℝ → ℝ → Option (ℝ × ℝ)) {xs : List Node} (hD : turning xs = []) {q : Node × Node}
    (hq : (bounding spec xs).head? = some q) : select spec .low ext xs = .ok (ofPair q) := by
  unfold select
  rw [hD]
  generalize bounding spec xs = B at hq
  match B with
  | [] => simp at hq
  | [a] =>
    simp only [List.head?_cons, Option.some.injEq] at hq
    simp [hq]
  | a :: b :: B =>
    simp only [List.head?_cons, Option.some.injEq] at hq
    subst hq
    dsimp only
    obtain ⟨-, hl⟩ := C94_interval (a :: b :: B).length (by simp)
    rw [hl]
    rfl

/-- **C159 (partial).** If the function rises or falls between neighbouring nodes and no slope changes its sign, the interval for
`high` contains the solution of highest temperature on the grid and the one for `low` the solution of lowest temperature. Missing: grids
with extrema inside an interval (see `C159_high_fails`). -/
theorem C159_extreme_partial {v : ℝ → ℝ} {xs : List Node} (hg : OnGraph v xs) (hp : Piecewise v xs) (hD : turning xs = [])
    (ext : ℝ → ℝ → Option (ℝ × ℝ)) {spec t : ℝ} (h : Within xs t) (ht : v t = spec) :
    (∃ i, select spec .high ext xs = .ok i ∧ t ≤ i.hi) ∧ ∃ i, select spec .low ext xs = .ok i ∧ i.lo ≤ t := by
  obtain ⟨p, hm, h1, h2⟩ := solution_bounding hg hp h ht
  have hs := bounding_sorted hg spec
  constructor
  · obtain ⟨q, hq⟩ : ∃ q, (bounding spec xs).getLast? = some q := by
      cases hb : (bounding spec xs).getLast? with
      | none => rw [List.getLast?_eq_none_iff] at hb; rw [hb] at hm; simp at hm
      | some q => exact ⟨q, rfl⟩
    refine ⟨_, select_high ext hD hq, h2.trans ?_⟩
    obtain ⟨ys, hys⟩ := List.getLast?_eq_some_iff.mp hq
    rw [hys] at hm hs
    rcases List.mem_append.mp hm with hm | hm
    · exact ((List.pairwise_append.mp hs).2.2 p hm q (by simp)).2
    · rw [List.mem_singleton.mp hm]; exact le_rfl
  · obtain ⟨q, hq⟩ : ∃ q, (bounding spec xs).head? = some q := by
      cases hb : (bounding spec xs).head? with
      | none => rw [List.head?_eq_none_iff] at hb; rw [hb] at hm; simp at hm
      | some q => exact ⟨q, rfl⟩
    refine ⟨_, select_low ext hD hq, le_trans ?_ h1⟩
    obtain ⟨ys, hys⟩ := List.head?_eq_some_iff.mp hq
    rw [hys] at hm hs
    rcases List.mem_cons.mp hm with rfl | hm
    · exact le_rfl
    · exact ((List.pairwise_cons.mp hs).1 p hm).1

example : ∃ (v : ℝ → ℝ) (xs : List Node), OnGraph v xs ∧ Piecewise v xs ∧ turning xs = [] ∧ Within xs 1 ∧ v 1 = 3 := by
  refine ⟨fun t => 3 * t, [⟨0, 0, 3⟩, ⟨2, 6, 3⟩], ⟨by norm_num, ?_⟩, ?_, by norm_num [turning, pairs, Turns], ?_, by norm_num⟩
  · intro a ha
    simp only [List.mem_cons, List.not_mem_nil, or_false] at ha
    rcases ha with rfl | rfl <;> norm_num
  · exact fun p _ => Or.inl fun x _ y _ h => by dsimp only; linarith
  · exact ⟨⟨0, 0, 3⟩, by simp, ⟨2, 6, 3⟩, by simp, by norm_num, by norm_num, by norm_num⟩

/-- A function which falls, rises and falls. -/
noncomputable def wave (t : ℝ) : ℝ := -(t ^ 3 / 3 - 2 * t ^ 2 + 3 * t)

/-- **C159 fails.** One interval encloses the value, so it is used, although the function turns in another and has the value at higher
temperatures too. -/
theorem C159_high_fails (ext : ℝ → ℝ → Option (ℝ × ℝ)) :
    ∃ xs : List Node, OnGraph wave xs ∧ (∀ a ∈ xs, HasDerivAt wave a.d a.T) ∧ (∃ i, select (-1 / 10) .high ext xs = .ok i ∧ i.hi = 2)
      ∧ ∃ t, 2 < t ∧ t < 4 ∧ Within xs t ∧ wave t = -1 / 10 := by
  have hd : ∀ t, HasDerivAt wave (-(t ^ 2 - 4 * t + 3)) t := by
    intro t
    have := ((((hasDerivAt_id t).pow 3).div_const 3).sub (((hasDerivAt_id t).pow 2).const_mul 2)).add ((hasDerivAt_id t).const_mul 3)
    refine (this.neg.congr_deriv ?_)
    simp
    ring
  refine ⟨[⟨0, 0, -3⟩, ⟨2, -2 / 3, 1⟩, ⟨4, -4 / 3, -3⟩], ⟨by norm_num, ?_⟩, ?_, ?_, ?_⟩
  · intro a ha
    simp only [List.mem_cons, List.not_mem_nil, or_false] at ha
    rcases ha with rfl | rfl | rfl <;> norm_num [wave]
  · intro a ha
    simp only [List.mem_cons, List.not_mem_nil, or_false] at ha
    rcases ha with rfl | rfl | rfl <;> exact (hd _).congr_deriv (by norm_num)
  · refine ⟨⟨0, 2, 0, -2 / 3, -3, 1⟩, ?_, rfl⟩
    norm_num [select, bounding, turning, pairs, Bounds, Turns, ofPair]
  · have hc : Continuous wave := by unfold wave; fun_prop
    obtain ⟨t, h1, h2, h3⟩ := between hc (a := 2) (b := 3) (spec := -1 / 10) (by norm_num) (Or.inr (by norm_num [wave]))
    have h2' : t ≠ 2 := by rintro rfl; norm_num [wave] at h3
    refine ⟨t, lt_of_le_of_ne h1 (Ne.symm h2'), by linarith, ?_, h3⟩
    exact ⟨⟨0, 0, -3⟩, by simp, ⟨4, -4 / 3, -3⟩, by simp, by norm_num, by dsimp only; linarith, by dsimp only; linarith⟩

/-- **C159 fails.** Only the first interval in which the function turns is searched: here the value is reached in the second, and
there is an exception. -/
theorem C159_second_turn_fails : ∃ (xs : List Node) (ext : ℝ → ℝ → Option (ℝ × ℝ)), OnGraph wave xs ∧ ext (1 / 2) 2 = some (1, wave 1)
    ∧ ext 2 4 = some (3, wave 3) ∧ (∀ want, select (-1 / 10) want ext xs = .error .index)
    ∧ ∃ t, Within xs t ∧ wave t = -1 / 10 := by
  refine ⟨[⟨1 / 2, -25 / 24, -5 / 4⟩, ⟨2, -2 / 3, 1⟩, ⟨4, -4 / 3, -3⟩],
    fun a _ => if a = 2 then some (3, wave 3) else some (1, wave 1), ⟨by norm_num, ?_⟩, by norm_num, by norm_num, ?_, ?_⟩
  · intro a ha
    simp only [List.mem_cons, List.not_mem_nil, or_false] at ha
    rcases ha with rfl | rfl | rfl <;> norm_num [wave]
  · intro want
    norm_num [select, bounding, turning, pairs, Bounds, Turns, atTurn, High, Low, wave]
  · have hc : Continuous wave := by unfold wave; fun_prop
    obtain ⟨t, h1, h2, h3⟩ := between hc (a := 2) (b := 3) (spec := -1 / 10) (by norm_num) (Or.inr (by norm_num [wave]))
    exact ⟨t, ⟨⟨2, -2 / 3, 1⟩, by simp, ⟨4, -4 / 3, -3⟩, by simp, by norm_num, h1, by dsimp only; linarith⟩, h3⟩

/-- A function with a least value. -/
noncomputable def bowl (t : ℝ) : ℝ := (t - 1) ^ 2

/-- **C159 fails.** A value equal to the extremum is an exception, although it is reached there. -/
theorem C159_extremum_fails (want : Want) : ∃ xs : List Node, OnGraph bowl xs ∧ Within xs 1 ∧ bowl 1 = 0
    ∧ select 0 want (fun _ _ => some (1, bowl 1)) xs = .error .index := by
  refine ⟨[⟨0, 1, -2⟩, ⟨2, 1, 2⟩], ⟨by norm_num, ?_⟩, ?_, by norm_num [bowl], ?_⟩
  · intro a ha
    simp only [List.mem_cons, List.not_mem_nil, or_false] at ha
    rcases ha with rfl | rfl <;> norm_num [bowl]
  · exact ⟨⟨0, 1, -2⟩, by simp, ⟨2, 1, 2⟩, by simp, by norm_num, by norm_num, by norm_num⟩
  · norm_num [select, bounding, turning, pairs, Bounds, Turns, atTurn, High, Low, bowl]

/-- **C159 fails.** Without a request, of two solutions the upper is sought if a node lies between them and the lower if none does. -/
theorem C159_unspecified_fails : ∃ xs ys : List Node, OnGraph bowl xs ∧ OnGraph bowl ys
    ∧ (∃ i, select (1 / 4) .unspecified (fun _ _ => some (1, bowl 1)) xs = .ok i ∧ i.hi = 1)
    ∧ ∃ i, select (1 / 4) .unspecified (fun _ _ => some (1, bowl 1)) ys = .ok i ∧ i.lo = 5 / 4 := by
  refine ⟨[⟨0, 1, -2⟩, ⟨2, 1, 2⟩], [⟨0, 1, -2⟩, ⟨5 / 4, 1 / 16, 1 / 2⟩, ⟨2, 1, 2⟩], ⟨by norm_num, ?_⟩, ⟨by norm_num, ?_⟩,
    ⟨⟨0, 1, 1, 0, -2, -2⟩, ?_, rfl⟩, ⟨⟨5 / 4, 2, 1 / 16, 1, 1 / 2, 2⟩, ?_, rfl⟩⟩
  · intro a ha
    simp only [List.mem_cons, List.not_mem_nil, or_false] at ha
    rcases ha with rfl | rfl <;> norm_num [bowl]
  · intro a ha
    simp only [List.mem_cons, List.not_mem_nil, or_false] at ha
    rcases ha with rfl | rfl | rfl <;> norm_num [bowl]
  · norm_num [select, bounding, turning, pairs, Bounds, Turns, atTurn, High, Low, bowl]
    nofun
  · norm_num [select, bounding, turning, pairs, Bounds, Turns, interval, ofPair]

/-! ## The guess (1248-1254) and the extremum (1258-1291) -/

open Classical in
/-- The guess, with its divisions. -/
noncomputable def guess (spec : ℝ) (i : Interval) : Except Err ℝ :=
  if i.dlo = 0 ∨ i.dhi = 0 then .error .zero else .ok (vfGuess i.lo i.hi i.vlo i.vhi i.dlo i.dhi spec)

/-- **C159.** With slopes other than zero there is a guess, and it is inside the interval. -/
theorem C159_guess (spec : ℝ) (i : Interval) (h : i.lo < i.hi) (hl : i.dlo ≠ 0) (hh : i.dhi ≠ 0) :
    ∃ g, guess spec i = .ok g ∧ i.lo < g ∧ g < i.hi := by
  obtain ⟨h1, h2, -⟩ := C94_vfGuess i.lo i.hi i.vlo i.vhi i.dlo i.dhi spec h
  exact ⟨_, if_neg (by tauto), h1, h2⟩

example : guess 1 ⟨0, 4, 0, 8, 2, 2⟩ = .ok (1 / 2) := by
  norm_num [guess, vfGuess]

/-- **C159 fails.** An extremum at a node changes no sign and is not searched; the guess divides by its slope. -/
theorem C159_zero_fails (ext : ℝ → ℝ → Option (ℝ × ℝ)) : ∃ xs : List Node, OnGraph bowl xs ∧ turning xs = []
    ∧ (∀ want, ∃ i, select (1 / 4) want ext xs = .ok i ∧ guess (1 / 4) i = .error .zero) ∧ bowl (3 / 2) = 1 / 4 := by
  refine ⟨[⟨0, 1, -2⟩, ⟨1, 0, 0⟩, ⟨2, 1, 2⟩], ⟨by norm_num, ?_⟩, ?_, ?_, by norm_num [bowl]⟩
  · intro a ha
    simp only [List.mem_cons, List.not_mem_nil, or_false] at ha
    rcases ha with rfl | rfl | rfl <;> norm_num [bowl]
  · norm_num [turning, pairs, Turns]
  · intro want
    have hb : bounding (1 / 4) [⟨0, 1, -2⟩, ⟨1, 0, 0⟩, ⟨2, 1, 2⟩] = [(⟨0, 1, -2⟩, ⟨1, 0, 0⟩), (⟨1, 0, 0⟩, ⟨2, 1, 2⟩)] := by
      norm_num [bounding, pairs, Bounds]
    have hk : ∃ k, interval want 2 = some k ∧ (k = 0 ∨ k = 1) := by
      cases want
      exacts [⟨1, rfl, Or.inr rfl⟩, ⟨0, rfl, Or.inl rfl⟩, ⟨0, rfl, Or.inl rfl⟩, ⟨1, rfl, Or.inr rfl⟩, ⟨0, rfl, Or.inl rfl⟩]
    obtain ⟨k, hk, h01⟩ := hk
    unfold select
    rw [hb]
    dsimp only [List.length]
    rw [hk]
    dsimp only
    rcases h01 with rfl | rfl
    · exact ⟨_, rfl, if_pos (Or.inr rfl)⟩
    · exact ⟨_, rfl, if_pos (Or.inl rfl)⟩

/-- `_VF_HSGUA_der_root`: a solver on an interval is the temperatures it evaluates and the one it returns; the value is the one of the
last evaluation. -/
def extremumOf (v : ℝ → ℝ) (solve : ℝ → ℝ → Option (List ℝ × ℝ)) (a b : ℝ) : Option (ℝ × ℝ) :=
  match solve a b with
  | none => none
  | some (ts, T0) => ts.getLast?.map fun t => (T0, v t)

/-- **C159.** If the solver returns the last temperature it evaluated, the value is the one at the extremum. -/
theorem C159_extremum (v : ℝ → ℝ) (solve : ℝ → ℝ → Option (List ℝ × ℝ))
    (h : ∀ a b ts T0, a < b → solve a b = some (ts, T0) → a ≤ T0 ∧ T0 ≤ b ∧ ts.getLast? = some T0) : Exact v (extremumOf v solve) := by
  intro a b T0 v0 hab he
  unfold extremumOf at he
  cases hs : solve a b with
  | none => rw [hs] at he; simp at he
  | some r =>
    obtain ⟨ts, T⟩ := r
    obtain ⟨h1, h2, h3⟩ := h a b ts T hab hs
    rw [hs] at he
    simp only [h3, Option.map_some, Option.some.injEq, Prod.mk.injEq] at he
    obtain ⟨rfl, rfl⟩ := he
    exact ⟨h1, h2, rfl⟩

example : ∀ a b ts T0, a < b → (fun a b : ℝ => some ([a, b, (a + b) / 2], (a + b) / 2)) a b = some (ts, T0) →
    a ≤ T0 ∧ T0 ≤ b ∧ ts.getLast? = some T0 := by
  intro a b ts T0 hab h
  simp only [Option.some.injEq, Prod.mk.injEq] at h
  obtain ⟨rfl, rfl⟩ := h
  exact ⟨by linarith, by linarith, by simp⟩

/-- **C159 fails.** The secant method returns a temperature it has not evaluated. With the value before, a specified value
above the extremum is taken as not reached: an exception, although both solutions are on the grid. -/
theorem C159_stale_fails (want : Want) : ∃ (xs : List Node) (solve : ℝ → ℝ → Option (List ℝ × ℝ)), OnGraph bowl xs
    ∧ (∀ a b, solve a b = some ([9 / 10], 1)) ∧ select (1 / 200) want (extremumOf bowl solve) xs = .error .index
    ∧ bowl 1 < 1 / 200 ∧ 1 / 200 < bowl 0 ∧ 1 / 200 < bowl 2 ∧ Within xs 0 ∧ Within xs 2 := by
  refine ⟨[⟨0, 1, -2⟩, ⟨2, 1, 2⟩], fun _ _ => some ([9 / 10], 1), ⟨by norm_num, ?_⟩, fun _ _ => rfl, ?_, by norm_num [bowl],
    by norm_num [bowl], by norm_num [bowl], ?_, ?_⟩
  · intro a ha
    simp only [List.mem_cons, List.not_mem_nil, or_false] at ha
    rcases ha with rfl | rfl <;> norm_num [bowl]
  · norm_num [select, bounding, turning, pairs, Bounds, Turns, atTurn, High, Low, bowl, extremumOf]
  · exact ⟨⟨0, 1, -2⟩, by simp, ⟨2, 1, 2⟩, by simp, by norm_num, by norm_num, by norm_num⟩
  · exact ⟨⟨0, 1, -2⟩, by simp, ⟨2, 1, 2⟩, by simp, by norm_num, by norm_num, by norm_num⟩

/-! ## The search (1293-1327) and the result (`flash_base.py` 443-451) -/

/-- The saturated phases at a temperature: saturation pressure and the specified property of both. -/
structure Sat where
  (P l g : ℝ → ℝ)

/-- What `to_solve` stores (1305), without the phases. -/
structure Cache where
  (T P err : ℝ)
  count : ℕ

/-- One evaluation (1301-1305). -/
noncomputable def evaluate (s : Sat) (VF spec : ℝ) (c : Option Cache) (T : ℝ) : Option Cache :=
  some ⟨T, s.P T, s.g T * VF + s.l T * (1 - VF) - spec, (c.map (·.count)).getD 0 + 1⟩

/-- The evaluations of a solver and what it returns; `none` is an exception. -/
abbrev Run := List ℝ × Option ℝ

/-- Lines 1319-1327: Newton's method, and if it fails the secant method; the last evaluation is returned. -/
noncomputable def search (s : Sat) (VF spec : ℝ) (newton secant : Run) : Option Cache :=
  let c := newton.1.foldl (evaluate s VF spec) none
  match newton.2 with
  | some _ => c
  | none => match secant.2 with
    | some _ => secant.1.foldl (evaluate s VF spec) c
    | none => none

theorem foldl_cache (s : Sat) (VF spec : ℝ) (ts : List ℝ) (c : Option Cache) (t : ℝ) :
    (ts ++ [t]).foldl (evaluate s VF spec) c
      = some ⟨t, s.P t, s.g t * VF + s.l t * (1 - VF) - spec, (c.map (·.count)).getD 0 + ts.length + 1⟩ := by
  have hc : ∀ (ts : List ℝ) (c : Option Cache), ((ts.foldl (evaluate s VF spec) c).map (·.count)).getD 0
      = (c.map (·.count)).getD 0 + ts.length := by
    intro ts
    induction ts with
    | nil => intro c; rfl
    | cons a ts ih =>
      intro c
      rw [List.foldl_cons, ih, List.length_cons]
      show (c.map (·.count)).getD 0 + 1 + ts.length = _
      omega
  rw [List.foldl_append, List.foldl_cons, List.foldl_nil]
  show some (Cache.mk _ _ _ _) = _
  rw [hc]

/-- A solver returns the last temperature it evaluated (`require_eval=True`). -/
def Evaluated (r : Run) : Prop := ∀ t, r.2 = some t → r.1.getLast? = some t

/-- The result: temperature, pressure, fractions of gas and liquid, their properties. -/
structure Result where
  (T P : ℝ)
  betas : List ℝ
  props : List ℝ
  iterations : ℕ
  err : ℝ

/-- Lines 443-451. -/
noncomputable def flash (s : Sat) (VF spec : ℝ) (newton secant : Run) : Option Result :=
  (search s VF spec newton secant).map fun c => ⟨c.T, c.P, [VF, 1 - VF], [s.g c.T, s.l c.T], c.count, c.err⟩

/-- **C159.** The result is at the temperature which the solver returned and at its saturation pressure, has the specified vapor
fraction, its property differs from the specified one by the reported error, and all evaluations are counted. -/
theorem C159_result (s : Sat) (VF spec : ℝ) (newton secant : Run) (hn : Evaluated newton) (hs : Evaluated secant) (r : Result)
    (h : flash s VF spec newton secant = some r) :
    (newton.2 = some r.T ∧ r.iterations = newton.1.length
        ∨ newton.2 = none ∧ secant.2 = some r.T ∧ r.iterations = newton.1.length + secant.1.length)
      ∧ r.P = s.P r.T ∧ r.betas.head? = some VF ∧ r.betas.sum = 1
      ∧ (List.zipWith (· * ·) r.betas r.props).sum = spec + r.err := by
  have fin : ∀ c : Cache, c.P = s.P c.T → c.err = s.g c.T * VF + s.l c.T * (1 - VF) - spec →
      r = ⟨c.T, c.P, [VF, 1 - VF], [s.g c.T, s.l c.T], c.count, c.err⟩ →
      r.P = s.P r.T ∧ r.betas.head? = some VF ∧ r.betas.sum = 1 ∧ (List.zipWith (· * ·) r.betas r.props).sum = spec + r.err := by
    rintro c h1 h2 rfl
    refine ⟨h1, rfl, by simp, ?_⟩
    simp [h2]
    ring
  unfold flash search at h
  dsimp only at h
  cases hn2 : newton.2 with
  | some t =>
    obtain ⟨ts, hts⟩ := List.getLast?_eq_some_iff.mp (hn t hn2)
    rw [hn2] at h
    dsimp only at h
    rw [hts, foldl_cache] at h
    have h := (Option.some.inj h).symm
    refine ⟨Or.inl ⟨by rw [h], by rw [h, hts]; simp⟩, fin _ rfl rfl h⟩
  | none =>
    rw [hn2] at h
    dsimp only at h
    cases hs2 : secant.2 with
    | none => rw [hs2] at h; simp at h
    | some t =>
      obtain ⟨ts, hts⟩ := List.getLast?_eq_some_iff.mp (hs t hs2)
      rw [hs2] at h
      dsimp only at h
      rw [hts, foldl_cache] at h
      have h := (Option.some.inj h).symm
      have hc : ((newton.1.foldl (evaluate s VF spec) none).map (·.count)).getD 0 = newton.1.length := by
        rcases List.eq_nil_or_concat newton.1 with he | ⟨us, u, he⟩
        · rw [he]; rfl
        · rw [he, List.concat_eq_append, foldl_cache]; simp
      refine ⟨Or.inr ⟨rfl, by rw [h], ?_⟩, fin _ rfl rfl h⟩
      rw [h, hts]
      dsimp only
      rw [hc, List.length_append]
      simp [add_assoc]

/-- **C159.** There is a result unless both methods fail. -/
theorem C159_answered (s : Sat) (VF spec : ℝ) (newton secant : Run) (hn : Evaluated newton) (hs : Evaluated secant) :
    flash s VF spec newton secant = none ↔ newton.2 = none ∧ secant.2 = none := by
  unfold flash search
  dsimp only
  cases hn2 : newton.2 with
  | some t =>
    obtain ⟨ts, hts⟩ := List.getLast?_eq_some_iff.mp (hn t hn2)
    dsimp only
    rw [hts, foldl_cache]
    simp
  | none =>
    cases hs2 : secant.2 with
    | none => simp
    | some t =>
      obtain ⟨ts, hts⟩ := List.getLast?_eq_some_iff.mp (hs t hs2)
      dsimp only
      rw [hts, foldl_cache]
      simp

example : Evaluated ([300, 310, 305], none) ∧ Evaluated ([305, 308], some 308) := by
  constructor <;> intro t h <;> simp_all

example (s : Sat) : ∃ r, flash s (1 / 4) 7 ([300, 310, 305], none) ([305, 308], some 308) = some r ∧ r.T = 308 ∧ r.iterations = 5 :=
  ⟨_, rfl, rfl, rfl⟩

/-! ## The data (1048-1079, 1109-1110) -/

/-- Data of the grid and whether they were made. -/
structure Obj (D : Type) where
  data : Option D
  built : Bool

/-- Lines 1109-1110 and 1048-1079: `made` are the data, `none` an exception; whether splines can be made is irrelevant, since the mark is set
before and their exceptions are swallowed. -/
def prepare {D : Type} (o : Obj D) (made : Option D) (_splines : Bool) : Option (Obj D) :=
  if o.built then some o
  else match made with
    | none => none
    | some d => some ⟨some d, true⟩

/-- **C159.** Data are made once, whether or not splines can be: later calls use them. A failure is an exception and the next call tries again. -/
theorem C159_once {D : Type} (o : Obj D) (hb : o.built = false) (d : D) (m' : Option D) (b b' : Bool) :
    (∃ o', prepare o (some d) b = some o' ∧ o'.data = some d ∧ prepare o' m' b' = some o') ∧ prepare o none b = none := by
  refine ⟨⟨⟨some d, true⟩, by simp [prepare, hb], rfl, by simp [prepare]⟩, by simp [prepare, hb]⟩

example : prepare (⟨none, false⟩ : Obj ℕ) (some 5) false = some ⟨some 5, true⟩ := rfl

end Verif.VaporFraction
