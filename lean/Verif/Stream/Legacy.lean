import Mathlib.Tactic

/-!
# The `Stream` class (`thermo/stream.py` 2081-2436) (C127)

Sums and differences of streams, phase flows after new states, the enthalpy a given energy stands for, the names of the
specifications, and the switch of automatic flashes.
-/

namespace Verif.Legacy

/-! ## Sums -/

/-- A stream: registry numbers of the components, mole fractions, mole flow. -/
structure S where
  cas : List String
  zs : List ℚ
  n : ℚ

/-- The flow of a component as `__add__` looks it up (2381-2386): nothing if it is not there. -/
def molesOf (s : S) (c : String) : ℚ := if c ∈ s.cas then s.zs.getD (s.cas.idxOf c) 0 * s.n else 0

/-- The components of the sum (2373-2376). -/
def union (a b : S) : List String := if a.cas.toFinset = b.cas.toFinset ∧ a.cas.length = b.cas.length then a.cas else (a.cas ++ b.cas).dedup.mergeSort (fun x y => decide (x ≤ y))

/-- `__add__` (2368-2390) with the composition of the new stream: `zs = normalize(ns)`, `n = sum(ns)` (2144-2145, 2189-2192). -/
def add (a b : S) : S :=
  let moles := (union a b).map fun c => molesOf a c + molesOf b c
  ⟨union a b, moles.map (· / moles.sum), moles.sum⟩

theorem mem_union (a b : S) (c : String) : c ∈ union a b ↔ c ∈ a.cas ∨ c ∈ b.cas := by
  unfold union
  split_ifs with h
  · have : c ∈ a.cas ↔ c ∈ b.cas := by rw [← List.mem_toFinset, h.1, List.mem_toFinset]
    rw [← this, or_self]
  · rw [List.mem_mergeSort, List.mem_dedup, List.mem_append]

theorem union_nodup (a b : S) (ha : a.cas.Nodup) : (union a b).Nodup := by
  unfold union
  split_ifs
  · exact ha
  · exact (List.mergeSort_perm _ _).nodup_iff.2 (List.nodup_dedup _)

theorem getD_map_idxOf (l : List String) (f : String → ℚ) (c : String) (h : c ∈ l) : (l.map f).getD (l.idxOf c) 0 = f c := by
  have hi : l.idxOf c < l.length := List.idxOf_lt_length_iff.2 h
  rw [List.getD_eq_getElem?_getD, List.getElem?_map, List.getElem?_eq_getElem hi]
  simp

/-- The flow of every component of the sum is the sum of its flows. -/
theorem C127_add (a b : S) (h : (add a b).n ≠ 0) (c : String) : molesOf (add a b) c = molesOf a c + molesOf b c := by
  by_cases hc : c ∈ union a b
  · have e : (add a b).zs.getD ((add a b).cas.idxOf c) 0 = (molesOf a c + molesOf b c) / (add a b).n := by
      unfold add
      dsimp only
      rw [List.map_map]
      exact getD_map_idxOf (union a b) _ c hc
    unfold molesOf
    rw [if_pos (show c ∈ (add a b).cas from hc), e]
    unfold molesOf
    field_simp
  · have h1 : c ∉ a.cas := fun hh => hc ((mem_union a b c).2 (Or.inl hh))
    have h2 : c ∉ b.cas := fun hh => hc ((mem_union a b c).2 (Or.inr hh))
    unfold molesOf
    rw [if_neg (show c ∉ (add a b).cas from hc), if_neg h1, if_neg h2, add_zero]

theorem sum_moles (s : S) (hn : s.cas.Nodup) (hl : s.zs.length = s.cas.length) (u : List String) (hu : u.Nodup) (hs : ∀ c ∈ s.cas, c ∈ u) : (u.map (molesOf s)).sum = s.zs.sum * s.n := by
  have e : s.cas.map (fun c => s.zs.getD (s.cas.idxOf c) 0) = s.zs := by
    apply List.ext_getElem
    · simp [hl]
    · intro i h1 h2
      rw [List.getElem_map, hn.idxOf_getElem, List.getD_eq_getElem?_getD, List.getElem?_eq_getElem h2]
      rfl
  rw [← List.sum_toFinset _ hu]
  have hsub : s.cas.toFinset ⊆ u.toFinset := fun c hc => List.mem_toFinset.2 (hs c (List.mem_toFinset.1 hc))
  rw [← Finset.sum_subset hsub (fun c _ hc => by unfold molesOf; rw [if_neg (fun hh => hc (List.mem_toFinset.2 hh))])]
  rw [Finset.sum_congr rfl (g := fun c => s.zs.getD (s.cas.idxOf c) 0 * s.n) (fun c hc => by unfold molesOf; rw [if_pos (List.mem_toFinset.1 hc)])]
  rw [← Finset.sum_mul, List.sum_toFinset _ hn, e]

/-- The mole flow of the sum is the sum of the mole flows, for streams without repeated components whose mole fractions sum to one. -/
theorem C127_add_total (a b : S) (ha : a.cas.Nodup) (hb : b.cas.Nodup) (la : a.zs.length = a.cas.length) (lb : b.zs.length = b.cas.length) (sa : a.zs.sum = 1) (sb : b.zs.sum = 1) : (add a b).n = a.n + b.n := by
  have h1 := sum_moles a ha la (union a b) (union_nodup a b ha) (fun c hc => (mem_union a b c).2 (Or.inl hc))
  have h2 := sum_moles b hb lb (union a b) (union_nodup a b ha) (fun c hc => (mem_union a b c).2 (Or.inr hc))
  show ((union a b).map fun c => molesOf a c + molesOf b c).sum = _
  rw [List.sum_map_add, h1, h2, sa, sb, one_mul, one_mul]

def water : S := ⟨["7732-18-5", "64-17-5"], [1 / 4, 3 / 4], 4⟩
def air : S := ⟨["7727-37-9", "64-17-5"], [1 / 2, 1 / 2], 6⟩

example : (add water air).n = 10 ∧ molesOf (add water air) "64-17-5" = 6 := by
  have h : (add water air).n = 10 := by
    rw [C127_add_total water air (by decide) (by decide) rfl rfl (by decide +kernel) (by decide +kernel)]
    decide +kernel
  refine ⟨h, ?_⟩
  rw [C127_add water air (by rw [h]; norm_num)]
  decide +kernel

/-! ## Differences -/

/-- One component of `__sub__` (2412-2425): what is left of `a` after `b` is taken, `p` being the difference of the totals. -/
def subOne (p a b : ℚ) : Except String ℚ :=
  if p = 0 ∨ a = 0 then .error "ZeroDivisionError"
  else
    let rp := |a - b| / p
    let rs := |a - b| / a
    if a - b < 0 ∧ (1 / 10 ^ 12 < rp ∨ 1 / 10 ^ 9 < rs) then .error "Exception"
    else if a - b < 0 then .ok 0
    else if rp < 1 / 10 ^ 12 then .ok 0
    else .ok (a - b)

/-- What is left is the difference up to a billionth of a thousandth of the product, and not negative; and nothing is refused if there is enough. -/
theorem C127_sub_partial (p a b : ℚ) (hp : 0 < p) (ha : 0 < a) : (∀ r, subOne p a b = .ok r → 0 ≤ r ∧ |r - (a - b)| ≤ p / 10 ^ 12) ∧ (b ≤ a → ∃ r, subOne p a b = .ok r) ∧
    (p / 10 ^ 12 < b - a → subOne p a b = .error "Exception") := by
  have h0 : ¬ (p = 0 ∨ a = 0) := by
    rintro (h | h)
    · exact hp.ne' h
    · exact ha.ne' h
  refine ⟨?_, ?_, ?_⟩
  · intro r h
    unfold subOne at h
    rw [if_neg h0] at h
    dsimp only at h
    split_ifs at h with h1 h2 h3
    · simp only [Except.ok.injEq] at h
      subst h
      push Not at h1
      have := (h1 h2).1
      rw [div_le_iff₀ hp] at this
      refine ⟨le_rfl, ?_⟩
      rw [zero_sub, abs_neg]
      linarith
    · simp only [Except.ok.injEq] at h
      subst h
      rw [div_lt_iff₀ hp] at h3
      refine ⟨le_rfl, ?_⟩
      rw [zero_sub, abs_neg]
      linarith
    · simp only [Except.ok.injEq] at h
      subst h
      refine ⟨not_lt.1 h2, ?_⟩
      rw [sub_self, abs_zero]
      positivity
  · intro hb
    have hn : ¬ (a - b < 0) := by linarith
    unfold subOne
    rw [if_neg h0]
    dsimp only
    rw [if_neg (fun h => hn h.1), if_neg hn]
    split_ifs
    · exact ⟨0, rfl⟩
    · exact ⟨a - b, rfl⟩
  · intro hb
    have hpos : 0 < p / 10 ^ 12 := by positivity
    have hn : a - b < 0 := by linarith
    unfold subOne
    rw [if_neg h0]
    dsimp only
    rw [if_pos]
    refine ⟨hn, Or.inl ?_⟩
    rw [lt_div_iff₀ hp, abs_of_neg hn]
    linarith

example : subOne 3 4 1 = .ok 3 ∧ subOne 3 4 5 = .error "Exception" ∧ subOne (10 ^ 13) 4 4 = .ok 0 := by
  unfold subOne
  norm_num

/-- Nothing can be taken from a stream if the totals are equal, nor if one of the shared components has no flow, even though nothing of it is taken. -/
theorem C127_sub_fails : (∀ a b, subOne 0 a b = .error "ZeroDivisionError") ∧ ∀ p, subOne p 0 0 = .error "ZeroDivisionError" := by
  constructor <;> intros <;> simp [subOne]

/-! ## Phase flows -/

inductive Ph | l | g | lg
  deriving DecidableEq

/-- The state of a stream: its phase, vapor fraction, mole flow, and the phase flows it shows. -/
structure St where
  ph : Ph
  VF : ℚ
  n : ℚ
  nl : Option ℚ := none
  ng : Option ℚ := none

/-- The phase flows set by `set_extensive_flow` (2262-2273): those of phases that are not there stay as they were. -/
def extensive (s : St) : St :=
  { s with nl := if s.ph = .lg ∨ s.ph = .l then some (s.n * (1 - s.VF)) else s.nl, ng := if s.ph = .lg ∨ s.ph = .g then some (s.n * s.VF) else s.ng }

/-- `flash` (2333-2345): the new state; only the energy flow is set again. -/
def flash (s : St) (ph : Ph) (VF : ℚ) : St := { s with ph := ph, VF := VF }
/-- `calculate` (2358-2366). -/
def calculate (s : St) (ph : Ph) (VF : ℚ) : St := extensive (flash s ph VF)

/-- The phase flows of the phases that are there. -/
def Shown (s : St) : Prop := (s.nl = if s.ph = .g then none else some (s.n * (1 - s.VF))) ∧ (s.ng = if s.ph = .l then none else some (s.n * s.VF))

/-- A new stream shows the flows of its phases, and in two phases they add up to its flow. After `calculate` the flows of the phases present are right. -/
theorem C127_phases_partial (s : St) (h : s.nl = none) (h' : s.ng = none) : Shown (extensive s) ∧ (s.ph = .lg → ∃ l g, (extensive s).nl = some l ∧ (extensive s).ng = some g ∧ l + g = s.n) ∧
    ∀ (t : St) ph VF, (ph ≠ .g → (calculate t ph VF).nl = some (t.n * (1 - VF))) ∧ (ph ≠ .l → (calculate t ph VF).ng = some (t.n * VF)) := by
  refine ⟨?_, ?_, ?_⟩
  · unfold Shown extensive
    dsimp only
    rw [h, h']
    cases s.ph <;> simp
  · intro hp
    refine ⟨s.n * (1 - s.VF), s.n * s.VF, ?_, ?_, by ring⟩ <;> simp [extensive, hp]
  · intro t ph VF
    constructor <;> intro hp <;> cases ph <;> simp_all [calculate, extensive, flash]

example : (extensive ⟨.lg, 1 / 4, 8, none, none⟩).nl = some 6 ∧ (extensive ⟨.lg, 1 / 4, 8, none, none⟩).ng = some 2 := by
  constructor <;> norm_num [extensive]

/-- After another flash the stream shows the phase flows of the state before, and after `calculate` those of a phase that is gone. -/
theorem C127_stale_fails : (flash (extensive ⟨.lg, 1 / 4, 8, none, none⟩) .g 1).ng = some 2 ∧ (calculate (extensive ⟨.lg, 1 / 4, 8, none, none⟩) .g 1).nl = some 6 ∧
    ¬ Shown (calculate (extensive ⟨.lg, 1 / 4, 8, none, none⟩) .g 1) := by
  have e : (calculate (extensive ⟨.lg, 1 / 4, 8, none, none⟩) .g 1).nl = some 6 := by decide +kernel
  refine ⟨by decide +kernel, e, ?_⟩
  intro h
  have := h.1
  rw [e] at this
  revert this
  decide

/-! ## Energy and specifications -/

/-- The molar enthalpy a stream is flashed with (2221-2225, 2339-2340): the energy gives a molar enthalpy, and a mass enthalpy takes its place. -/
def enthalpy (MW n : ℚ) (energy H Hm : Option ℚ) : Option ℚ :=
  let Hm := match energy with
    | some e => some (e / n)
    | none => Hm
  match H with
  | some h => some (h * MW / 1000)
  | none => Hm

/-- An energy given without a mass enthalpy is the energy of the stream. -/
theorem C127_energy_partial (MW n e : ℚ) (Hm : Option ℚ) (hn : n ≠ 0) : ∃ h, enthalpy MW n (some e) none Hm = some h ∧ h * n = e :=
  ⟨e / n, rfl, by field_simp⟩

example : enthalpy 18 4 (some 100) none (some 3) = some 25 := by norm_num [enthalpy]

/-- With a mass enthalpy the energy is dropped. -/
theorem C127_energy_fails : enthalpy 18 4 (some 100) (some 1000) none = some 18 := by norm_num [enthalpy]

/-- The check of the flow rates (2120-2142): `k` of `ns, ms, Qls, Qgs, m, n, Q` are given. -/
def flowOk (k : ℕ) (energy H Hm : Bool) : Bool :=
  let k := if 1 < k ∧ energy = true ∧ (Hm = true ∨ H = true) then k - 1 else k
  k = 1

/-- Without an energy exactly one flow rate is accepted. -/
theorem C127_flow (k : ℕ) (H Hm : Bool) : flowOk k false H Hm = true ↔ k = 1 := by simp [flowOk]

/-- With energy and enthalpy alone, as the message offers, a stream is refused, and the code for it (2212-2218) never runs; with two flow rates it is accepted. -/
theorem C127_flow_fails : flowOk 0 true true false = false ∧ flowOk 2 true true false = true := by decide

/-- The specifications of a flash in the order they are stored (2335), and the names `state_specs` gives them (2316). -/
def stored : List String := ["T", "P", "VF", "H", "Hm", "S", "Sm", "energy"]
@[inherit_doc stored] def shown : List String := ["T", "P", "VF", "Hm", "H", "Sm", "S", "energy"]

/-- `state_specs` (2310-2320). -/
def stateSpecs (specs : List (Option ℚ)) : List (String × ℚ) := (shown.zip specs).filterMap fun p => p.2.map fun v => (p.1, v)

/-- Mass enthalpies and entropies are listed as molar ones, and molar ones as mass ones; all others by their own names. -/
theorem C127_state_specs_fails : stateSpecs [none, some 5, none, some 7, none, none, none, none] = [("P", 5), ("Hm", 7)] ∧ stored.getD 3 "" = "H" ∧ stateSpecs [none, some 5, none, none, none, none, some 9, none] = [("P", 5), ("S", 9)] ∧ stored.getD 6 "" = "Sm" ∧
    (List.range 8).filter (fun i => stored.getD i "" ≠ shown.getD i "") = [3, 4, 5, 6] := by decide +kernel

/-- A specification of temperature, pressure or vapor fraction, of an energy or none of the others is listed by its own name. -/
theorem C127_state_specs_partial (T P VF E : Option ℚ) : stateSpecs [T, P, VF, none, none, none, none, E] = ([("T", T), ("P", P), ("VF", VF), ("energy", E)].filterMap fun p => p.2.map fun v => (p.1, v)) := by
  cases T <;> cases P <;> cases VF <;> cases E <;> rfl

example : stateSpecs [some 300, some 5, none, none, none, none, none, none] = [("T", 300), ("P", 5)] := by decide +kernel

/-! ## Automatic flashes -/

/-- The construction of a stream without temperature or pressure (2157-2162) as a change of `Mixture.autoflash`, which all mixtures share; `ok` says whether the mixture could be built. -/
def construct (autoflash : Bool) (hasTP ok : Bool) : Bool := if hasTP then autoflash else if ok then true else false

/-- After streams that could all be built, mixtures are flashed automatically. -/
theorem C127_autoflash_partial (l : List (Bool × Bool)) (h : ∀ p ∈ l, p.2 = true) : l.foldl (fun a p => construct a p.1 p.2) true = true := by
  induction l with
  | nil => rfl
  | cons p l ih =>
    rw [List.foldl_cons]
    have hp := h p (by simp)
    have : construct true p.1 p.2 = true := by
      rw [hp]
      cases p.1 <;> rfl
    rw [this]
    exact ih (fun q hq => h q (by simp [hq]))

example : [(true, true), (false, true)].foldl (fun a p => construct a p.1 p.2) true = true := by decide

/-- One that could not be built, for instance with a misspelt component, turns them off for every mixture made later, until a stream without temperature or pressure is built. -/
theorem C127_autoflash_fails : [(false, false), (true, true)].foldl (fun a p => construct a p.1 p.2) true = false := by decide

end Verif.Legacy
