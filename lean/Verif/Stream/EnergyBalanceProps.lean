import Verif.Stream.EnergyBalance
import Mathlib.Tactic.FinCases

/-!
# C07: what `energy_balance` guarantees
-/

namespace Verif.EnergyBalance

open Finset

variable {a b : ℕ}

/-! ## Specification -/

/-- Every energy is known and the two sides have the same sum. -/
def EnergyCloses (ins : Fin a → Strm) (outs : Fin b → Strm) : Prop :=
  ∃ x : Fin a → ℚ, ∃ y : Fin b → ℚ, (∀ i, (ins i).energy = some (x i)) ∧
    (∀ i, (outs i).energy = some (y i)) ∧ ∑ i, x i = ∑ i, y i

/-- Mass flow counted in the balance: energy streams carry none. -/
def massOf (f : Strm) : ℚ := if f.kind = Kind.energyStream then 0 else f.m.getD 0

/-- All material streams have a mass flow and the two sides have the same sum. -/
def MassCloses (ins : Fin a → Strm) (outs : Fin b → Strm) : Prop :=
  (∀ i, (ins i).kind ≠ Kind.energyStream → (ins i).m ≠ none) ∧
  (∀ i, (outs i).kind ≠ Kind.energyStream → (outs i).m ≠ none) ∧
  ∑ i, massOf (ins i) = ∑ i, massOf (outs i)

/-! ## Helpers -/

theorem lastUnknown_spec (s : Fin a → Strm) (h : (unknowns s).card = 1) :
    ∃ o, lastUnknown s = some o ∧ (s o).energy = none ∧ ∀ i, i ≠ o → (s i).energy ≠ none := by
  obtain ⟨z, hz⟩ := card_eq_one.1 h
  have hzu : (s z).energy = none := by
    have : z ∈ unknowns s := by rw [hz]; simp
    simpa [unknowns] using this
  have huniq : ∀ i, i ≠ z → (s i).energy ≠ none := by
    intro i hi hne
    have : i ∈ unknowns s := by simp [unknowns, hne]
    rw [hz, mem_singleton] at this
    exact hi this
  cases hl : lastUnknown s with
  | none =>
    exfalso
    have := List.find?_eq_none.1 hl z (by simp)
    simp [hzu] at this
  | some o =>
    have ho : (s o).energy = none := by simpa using List.find?_some hl
    have : o = z := by
      by_contra hne
      exact huniq o hne ho
    subst this
    exact ⟨o, rfl, ho, huniq⟩

theorem lastUnknown_none (s : Fin a → Strm) (h : (unknowns s).card = 0) :
    lastUnknown s = none := by
  cases hl : lastUnknown s with
  | none => rfl
  | some o =>
    have ho : (s o).energy = none := by simpa using List.find?_some hl
    have := filter_eq_empty_iff.1 (card_eq_zero.1 h) (mem_univ o)
    exact absurd ho this

theorem all_known (s : Fin a → Strm) (h : (unknowns s).card = 0) (i : Fin a) :
    (s i).energy = some (((s i).energy).getD 0) := by
  have := filter_eq_empty_iff.1 (card_eq_zero.1 h) (mem_univ i)
  cases hh : (s i).energy <;> simp_all

theorem known_some {o : Option ℚ} (h : o ≠ none) : o = some (o.getD 0) := by
  cases o <;> simp_all

/-- Replacing the only unknown entry adds its value to the sum. -/
theorem sum_replace (s : Fin a → Strm) (o : Fin a) (ho : (s o).energy = none) (v : ℚ) :
    ∑ i, (if i = o then v else ((s i).energy).getD 0) = v + knownEnergy s := by
  rw [← add_sum_erase univ _ (mem_univ o)]
  unfold knownEnergy
  rw [← add_sum_erase univ (fun i => ((s i).energy).getD 0) (mem_univ o), ho]
  simp only [if_true, Option.getD_none, zero_add]
  congr 1
  apply sum_congr rfl
  intro i hi
  simp [(mem_erase.1 hi).1]

theorem sum_replace_mass (s : Fin a → Strm) (o : Fin a) (ho : (s o).kind ≠ Kind.energyStream)
    (v mk : ℚ) (h : massSum s {o} = some mk) :
    ∑ i, massOf (if i = o then setMass (s i) v else s i) = v + mk := by
  unfold massSum at h
  split_ifs at h with hh
  simp only [Option.some.injEq] at h
  rw [← h, ← add_sum_erase univ _ (mem_univ o),
    ← add_sum_erase univ (fun i => if i ∉ ({o} : Finset (Fin a)) ∧ (s i).kind ≠ Kind.energyStream
      then ((s i).m).getD 0 else 0) (mem_univ o)]
  simp only [if_true, mem_singleton, not_true, false_and, if_false, zero_add]
  congr 1
  · simp [massOf, setMass, ho]
  · apply sum_congr rfl
    intro i hi
    have hne := (mem_erase.1 hi).1
    by_cases hk : (s i).kind = Kind.energyStream <;> simp [massOf, hne, hk]

theorem massSum_known {s : Fin a → Strm} {skip : Finset (Fin a)} {mk : ℚ}
    (h : massSum s skip = some mk) (i : Fin a) (hi : i ∉ skip) (hk : (s i).kind ≠ Kind.energyStream) :
    (s i).m ≠ none := by
  unfold massSum at h
  split_ifs at h with hh
  intro hn
  exact hh ⟨i, hi, hk, hn⟩

theorem massSum_all {s : Fin a → Strm} {mk : ℚ} (h : massSum s ∅ = some mk) :
    ∑ i, massOf (s i) = mk := by
  unfold massSum at h
  split_ifs at h with hh
  simp only [Option.some.injEq] at h
  rw [← h]
  apply sum_congr rfl
  intro i _
  by_cases hk : (s i).kind = Kind.energyStream <;> simp [massOf, hk]

/-! ## One unknown energy -/

/-- **C07 (partial), one unknown.** With exactly one stream of unknown energy, and not in the
one-in-one-out shortcut, and that stream not already given by two state variables and a flow (then
the call raises, `C07_overdetermined_raises`), the balance succeeds, closes exactly, and changes no stream whose energy
was known. Missing for the full claim: the shortcut (`C07_shortcut_partial`,
`C07_shortcut_does_not_close`). -/
theorem C07_single_unknown_partial (um : Bool) (ins : Fin a → Strm) (outs : Fin b → Strm)
    (h : (univ.filter (fun i => (ins i).energy = none)).card
      + (univ.filter (fun i => (outs i).energy = none)).card = 1)
    (hns : ¬ (a = 1 ∧ b = 1))
    (hgi : ∀ i, (ins i).energy = none → ¬ ((ins i).twoStates = true ∧ (ins i).flowGiven = true))
    (hgo : ∀ i, (outs i).energy = none → ¬ ((outs i).twoStates = true ∧ (outs i).flowGiven = true)) :
    ∃ ins' outs', energyBalance um ins outs = .done true ins' outs' ∧ EnergyCloses ins' outs' ∧
      (∀ i, (ins i).energy ≠ none → ins' i = ins i) ∧
      (∀ i, (outs i).energy ≠ none → outs' i = outs i) := by
  have h' : (unknowns ins).card + (unknowns outs).card = 1 := h
  rcases (by omega : ((unknowns ins).card = 0 ∧ (unknowns outs).card = 1) ∨
      ((unknowns ins).card = 1 ∧ (unknowns outs).card = 0)) with ⟨e1, e2⟩ | ⟨e1, e2⟩
  · obtain ⟨o, ho1, ho2, ho3⟩ := lastUnknown_spec outs e2
    refine ⟨ins, fun i => if i = o then setEnergy (outs i) (knownEnergy ins - knownEnergy outs)
      else outs i, ?_, ?_, fun i _ => rfl, ?_⟩
    · have := hgo o ho2
      simp [energyBalance, hns, general, e1, e2, ho1, energyRefused, this]
    · refine ⟨fun i => ((ins i).energy).getD 0, fun i => if i = o then
        knownEnergy ins - knownEnergy outs else ((outs i).energy).getD 0, all_known ins e1, ?_, ?_⟩
      · intro i
        by_cases hi : i = o
        · simp [hi, setEnergy]
        · simp only [hi, if_false]; exact known_some (ho3 i hi)
      · rw [sum_replace outs o ho2]; simp [knownEnergy]
    · intro i hi
      by_cases hio : i = o
      · rw [hio] at hi; exact absurd ho2 hi
      · simp [hio]
  · obtain ⟨o, ho1, ho2, ho3⟩ := lastUnknown_spec ins e1
    refine ⟨fun i => if i = o then setEnergy (ins i) (knownEnergy outs - knownEnergy ins)
      else ins i, outs, ?_, ?_, ?_, fun i _ => rfl⟩
    · have := hgi o ho2
      simp [energyBalance, hns, general, e1, e2, ho1, energyRefused, this]
    · refine ⟨fun i => if i = o then
        knownEnergy outs - knownEnergy ins else ((ins i).energy).getD 0,
        fun i => ((outs i).energy).getD 0, ?_, all_known outs e2, ?_⟩
      · intro i
        by_cases hi : i = o
        · simp [hi, setEnergy]
        · simp only [hi, if_false]; exact known_some (ho3 i hi)
      · rw [sum_replace ins o ho2]; simp [knownEnergy]
    · intro i hi
      by_cases hio : i = o
      · rw [hio] at hi; exact absurd ho2 hi
      · simp [hio]

/-- **C07.** The single stream of unknown energy that is already given by two state variables and a
flow is not overwritten: the call raises. -/
theorem C07_overdetermined_raises (um : Bool) (ins : Fin a → Strm) (outs : Fin b → Strm) (o : Fin b)
    (hi : ∀ i, (ins i).energy ≠ none) (ho : ∀ i, (outs i).energy = none ↔ i = o)
    (h1 : (outs o).twoStates = true) (h2 : (outs o).flowGiven = true) (hns : ¬ (a = 1 ∧ b = 1)) :
    energyBalance um ins outs = .raised := by
  have e1 : (unknowns ins).card = 0 := by
    rw [card_eq_zero]; ext i; simp [unknowns, hi i]
  have e2 : (unknowns outs).card = 1 := card_eq_one.2 ⟨o, by ext i; simp [unknowns, ho i]⟩
  obtain ⟨q, hq1, hq2, -⟩ := lastUnknown_spec outs e2
  have := (ho q).1 hq2; subst this
  simp [energyBalance, hns, general, e1, e2, hq1, energyRefused, h1, h2]

/-- A flashed stream of known energy. -/
def known (e m n : ℚ) : Strm := ⟨.flashed, some (e / n), some e, some m, none, some n, true, true⟩
/-- An energy stream. -/
def duty (e : Option ℚ) : Strm := ⟨.energyStream, none, e, none, none, none, false, false⟩
/-- A `StreamArgs` with a specified state and no flow. -/
def stateOnly (hm : ℚ) : Strm := ⟨.args, none, none, none, some hm, none, true, false⟩

example : (univ.filter (fun i => ((![known 10 2 1, known 20 1 1] : Fin 2 → Strm) i).energy = none)).card
    + (univ.filter (fun i => ((![duty none, known 5 3 2] : Fin 2 → Strm) i).energy = none)).card = 1
    ∧ ¬ ((2 : ℕ) = 1 ∧ (2 : ℕ) = 1) ∧ (duty none).twoStates = false := by
  refine ⟨by decide +kernel, by omega, rfl⟩

/-! ## The one-in-one-out shortcut -/

/-- **C07 (partial), shortcut.** One material stream in, one out, molar enthalpy known on one side:
the balance closes when both molar flows are known and equal. -/
theorem C07_shortcut_partial (um : Bool) (p q : Strm) (hi n : ℚ)
    (hp : p.kind ≠ Kind.energyStream) (hq : q.kind ≠ Kind.energyStream)
    (hH : p.H = some hi) (hH' : q.H = none) (hn : p.n = some n) (hn' : q.n = some n)
    (hE : p.energy = some (n * hi)) (hg : q.twoStates = false) :
    ∃ ins' outs', energyBalance um (fun _ : Fin 1 => p) (fun _ : Fin 1 => q) = .done true ins' outs'
      ∧ EnergyCloses ins' outs' := by
  refine ⟨fun _ => p, fun _ => setH q hi, ?_, ?_⟩
  · simp [energyBalance, hp, hq, hH, hH', hg]
  · exact ⟨fun _ => n * hi, fun _ => n * hi, fun _ => hE, fun _ => by simp [setH, hn'], by simp⟩

/-- **C07 fails** in the shortcut when the molar flow changes, as it does across a reactor
(`reactive=True`, 3 mol/s in, 2 mol/s out): the molar enthalpy is copied, the call reports success,
and the energies differ. -/
theorem C07_shortcut_does_not_close :
    ∃ p q : Strm, p.n = some 3 ∧ q.n = some 2 ∧ p.energy = some 30 ∧
      ∃ ins' outs', energyBalance true (fun _ : Fin 1 => p) (fun _ : Fin 1 => q)
        = .done true ins' outs' ∧ ¬ EnergyCloses ins' outs' := by
  refine ⟨⟨.flashed, some 10, some 30, some 1, none, some 3, true, true⟩,
    ⟨.args, none, none, none, none, some 2, false, true⟩, rfl, rfl, rfl, fun _ => _, fun _ => _,
    by simp [energyBalance]; exact ⟨rfl, rfl⟩, ?_⟩
  rintro ⟨x, y, hx, hy, h⟩
  have h0 := hx 0
  have h1 := hy 0
  simp [setH] at h0 h1 h
  rw [← h0, ← h1] at h
  norm_num at h

/-! ## One unknown mass flow on each side -/

/-- **C07, one unknown mass flow on each side.** When exactly one stream on each side has unknown
energy, both are `StreamArgs` with specified states of different mass enthalpy, and all other
material streams have a mass flow, then with `use_mass` both the mass and the energy balance close
exactly. -/
theorem C07_two_unknown_masses (ins : Fin a → Strm) (outs : Fin b → Strm) (p : Fin a) (q : Fin b)
    (hi ho : ℚ) (hab : ¬ (a = 1 ∧ b = 1))
    (hp : ∀ i, (ins i).energy = none ↔ i = p) (hq : ∀ i, (outs i).energy = none ↔ i = q)
    (kp : (ins p).kind = Kind.args) (kq : (outs q).kind = Kind.args)
    (hHi : (ins p).Hm = some hi) (hHo : (outs q).Hm = some ho) (hne : hi ≠ ho)
    (hmi : ∀ i, i ≠ p → (ins i).kind ≠ Kind.energyStream → (ins i).m ≠ none)
    (hmo : ∀ i, i ≠ q → (outs i).kind ≠ Kind.energyStream → (outs i).m ≠ none) :
    ∃ ins' outs', energyBalance true ins outs = .done true ins' outs' ∧
      EnergyCloses ins' outs' ∧ MassCloses ins' outs' := by
  have e1 : (unknowns ins).card = 1 := card_eq_one.2 ⟨p, by ext i; simp [unknowns, hp i]⟩
  have e2 : (unknowns outs).card = 1 := card_eq_one.2 ⟨q, by ext i; simp [unknowns, hq i]⟩
  obtain ⟨p', hp1, hp2, hp3⟩ := lastUnknown_spec ins e1
  obtain ⟨q', hq1, hq2, hq3⟩ := lastUnknown_spec outs e2
  have := (hp p').1 hp2; subst this
  have := (hq q').1 hq2; subst this
  obtain ⟨mi, hmi'⟩ : ∃ mi, massSum ins {p'} = some mi := by
    unfold massSum
    rw [if_neg]; exact ⟨_, rfl⟩
    rintro ⟨i, h1, h2, h3⟩
    exact hmi i (by simpa using h1) h2 h3
  obtain ⟨mo, hmo'⟩ : ∃ mo, massSum outs {q'} = some mo := by
    unfold massSum
    rw [if_neg]; exact ⟨_, rfl⟩
    rintro ⟨i, h1, h2, h3⟩
    exact hmo i (by simpa using h1) h2 h3
  have hsub : hi - ho ≠ 0 := sub_ne_zero.2 hne
  set mp := (ho * mi - ho * mo - knownEnergy ins + knownEnergy outs) / (hi - ho) with hmp
  set mq := (hi * mi - hi * mo - knownEnergy ins + knownEnergy outs) / (hi - ho) with hmq
  refine ⟨fun i => if i = p' then setMass (ins i) mp else ins i,
    fun i => if i = q' then setMass (outs i) mq else outs i, ?_, ?_, ?_, ?_, ?_⟩
  · simp [energyBalance, hab, general, e1, e2, hp1, hq1, eligible, kp, kq, hHi, hHo, hmi', hmo', hsub,
      hmp, hmq]
  · refine ⟨fun i => if i = p' then mp * hi else ((ins i).energy).getD 0,
      fun i => if i = q' then mq * ho else ((outs i).energy).getD 0, ?_, ?_, ?_⟩
    · intro i
      by_cases h : i = p'
      · subst h; simp [setMass, hHi]
      · simp only [h, if_false]; exact known_some (hp3 i h)
    · intro i
      by_cases h : i = q'
      · subst h; simp [setMass, hHo]
      · simp only [h, if_false]; exact known_some (hq3 i h)
    · rw [sum_replace ins p' hp2, sum_replace outs q' hq2, hmp, hmq]
      field_simp
      ring
  · intro i hk
    by_cases h : i = p'
    · simp [h, setMass]
    · simp only [h, if_false] at hk ⊢; exact hmi i h hk
  · intro i hk
    by_cases h : i = q'
    · simp [h, setMass]
    · simp only [h, if_false] at hk ⊢; exact hmo i h hk
  · rw [sum_replace_mass ins p' (by rw [kp]; decide) mp mi hmi',
      sum_replace_mass outs q' (by rw [kq]; decide) mq mo hmo', hmp, hmq]
    field_simp
    ring

example : ∃ (ins : Fin 2 → Strm) (outs : Fin 1 → Strm),
    (∀ i, (ins i).energy = none ↔ i = 0) ∧ (∀ i, (outs i).energy = none ↔ i = 0) ∧
    (ins 0).kind = Kind.args ∧ (outs 0).kind = Kind.args ∧ (ins 0).Hm = some 2 ∧
    (outs 0).Hm = some 3 ∧ (∀ i, i ≠ 0 → (ins i).kind ≠ Kind.energyStream → (ins i).m ≠ none) := by
  refine ⟨![stateOnly 2, known 10 2 1], ![stateOnly 3], by decide +kernel, by decide +kernel,
    rfl, rfl, rfl, rfl, by decide +kernel⟩

/-! ## Two unknown mass flows on the same side -/

theorem filter_two {s : Fin a → Strm} {i0 i1 : Fin a} (h : i0 < i1)
    (he : ∀ i, eligible (s i) = true ↔ i = i0 ∨ i = i1) :
    (List.finRange a).filter (fun i => eligible (s i)) = [i0, i1] := by
  have hp : ((List.finRange a).filter (fun i => eligible (s i))).Perm [i0, i1] := by
    rw [List.perm_ext_iff_of_nodup ((List.nodup_finRange a).filter _) (by simp [h.ne])]
    intro i
    simp [he i]
  refine List.Perm.eq_of_pairwise (le := (· < ·)) ?_ ?_ ?_ hp
  · intro x y _ _ h1 h2
    exact absurd (h1.trans h2) (lt_irrefl _)
  · exact (List.pairwise_lt_finRange a).filter _
  · simp [h]

/-- **C07 (partial), two unknown mass flows at the inlet.** When exactly the two inlets `i0 < i1`
have unknown energy, are `StreamArgs` with specified states of different mass enthalpy, no other
inlet is a `StreamArgs` with a specified state, and all other material streams have a mass flow,
then with `use_mass` both balances close exactly. Missing for the full claim: the hypothesis that no
third inlet is a specified `StreamArgs`; without it see `C07_two_unknowns_wrong_stream`. -/
theorem C07_two_unknown_inlets_partial (ins : Fin a → Strm) (outs : Fin b → Strm) (i0 i1 : Fin a)
    (h0 h1 : ℚ) (hlt : i0 < i1)
    (hp : ∀ i, (ins i).energy = none ↔ i = i0 ∨ i = i1) (hq : ∀ i, (outs i).energy ≠ none)
    (hel : ∀ i, eligible (ins i) = true ↔ i = i0 ∨ i = i1)
    (hH0 : (ins i0).Hm = some h0) (hH1 : (ins i1).Hm = some h1) (hne : h0 ≠ h1)
    (hmi : ∀ i, i ≠ i0 → i ≠ i1 → (ins i).kind ≠ Kind.energyStream → (ins i).m ≠ none)
    (hmo : ∀ i, (outs i).kind ≠ Kind.energyStream → (outs i).m ≠ none) :
    ∃ ins', energyBalance true ins outs = .done true ins' outs ∧
      EnergyCloses ins' outs ∧ MassCloses ins' outs := by
  have hne01 : i0 ≠ i1 := hlt.ne
  have e1 : (unknowns ins).card = 2 := by
    have : unknowns ins = {i0, i1} := by ext i; simp [unknowns, hp i]
    rw [this, card_pair hne01]
  have e2 : (unknowns outs).card = 0 := by
    rw [card_eq_zero]; ext i; simp [unknowns, hq i]
  have hab : ¬ (a = 1 ∧ b = 1) := by
    rintro ⟨rfl, -⟩; exact hne01 (Subsingleton.elim _ _)
  obtain ⟨mk, hmk⟩ : ∃ mk, massSum ins {i0, i1} = some mk := by
    unfold massSum
    rw [if_neg]; exact ⟨_, rfl⟩
    rintro ⟨i, ha, hb, hc⟩
    simp only [mem_insert, mem_singleton, not_or] at ha
    exact hmi i ha.1 ha.2 hb hc
  obtain ⟨mo, hmo'⟩ : ∃ mo, massSum outs ∅ = some mo := by
    unfold massSum
    rw [if_neg]; exact ⟨_, rfl⟩
    rintro ⟨i, ha, hb, hc⟩
    exact hmo i hb hc
  have hsub : h0 - h1 ≠ 0 := sub_ne_zero.2 hne
  set m0 := (h1 * mk - h1 * mo - knownEnergy ins + knownEnergy outs) / (h0 - h1) with hm0
  set m1 := (-h0 * mk + h0 * mo + knownEnergy ins - knownEnergy outs) / (h0 - h1) with hm1
  have k0 : (ins i0).kind = Kind.args := by
    have := (hel i0).2 (Or.inl rfl); simp only [eligible, Bool.and_eq_true, decide_eq_true_eq] at this
    exact this.1
  have k1 : (ins i1).kind = Kind.args := by
    have := (hel i1).2 (Or.inr rfl); simp only [eligible, Bool.and_eq_true, decide_eq_true_eq] at this
    exact this.1
  refine ⟨fun i => if i = i1 then setMass (ins i) m1 else if i = i0 then setMass (ins i) m0
          else ins i, ?_, ?_, ?_, ?_, ?_⟩
  · have hlo := lastUnknown_none outs e2
    have ht : twoUnknown ins (massSum outs ∅) (knownEnergy outs) = some (some (fun i =>
        if i = i1 then setMass (ins i) m1 else if i = i0 then setMass (ins i) m0 else ins i)) := by
      simp [twoUnknown, filter_two hlt hel, hH0, hH1, hmk, hmo', hsub, hm0, hm1]
    have hg : general true ins outs = .done true (fun i =>
        if i = i1 then setMass (ins i) m1 else if i = i0 then setMass (ins i) m0 else ins i) outs := by
      unfold general
      simp only [e1, e2, hlo, ht]
      cases lastUnknown ins <;> simp
    simp only [energyBalance, hab, dite_false, hg]
  · refine ⟨fun i => if i = i1 then m1 * h1 else if i = i0 then m0 * h0 else ((ins i).energy).getD 0,
      fun i => ((outs i).energy).getD 0, ?_, fun i => known_some (hq i), ?_⟩
    · intro i
      by_cases ha : i = i1
      · subst ha; simp [setMass, hH1]
      · by_cases hb : i = i0
        · subst hb; simp [ha, setMass, hH0]
        · simp only [ha, hb, if_false]
          exact known_some (fun hn => by rcases (hp i).1 hn with h | h <;> contradiction)
    · rw [← add_sum_erase univ _ (mem_univ i1), ← add_sum_erase (univ.erase i1) _
        (mem_erase.2 ⟨hne01, mem_univ i0⟩)]
      simp only [if_true, hne01, if_false]
      have : ∑ i ∈ (univ.erase i1).erase i0, (if i = i1 then m1 * h1 else if i = i0 then m0 * h0
          else ((ins i).energy).getD 0) = knownEnergy ins := by
        unfold knownEnergy
        rw [← add_sum_erase univ (fun i => ((ins i).energy).getD 0) (mem_univ i1),
          ← add_sum_erase (univ.erase i1) (fun i => ((ins i).energy).getD 0)
          (mem_erase.2 ⟨hne01, mem_univ i0⟩), (hp i1).2 (Or.inr rfl), (hp i0).2 (Or.inl rfl)]
        simp only [Option.getD_none, zero_add]
        apply sum_congr rfl
        intro i hi
        have h2 := (mem_erase.1 hi).1
        have h3 := (mem_erase.1 (mem_erase.1 hi).2).1
        simp [h2, h3]
      rw [this]
      change _ = knownEnergy outs
      rw [hm0, hm1]
      field_simp
      ring
  · intro i hk
    by_cases ha : i = i1
    · simp [ha, setMass]
    · by_cases hb : i = i0
      · simp [hb, hne01, setMass]
      · simp only [ha, hb, if_false] at hk ⊢; exact hmi i hb ha hk
  · exact hmo
  · rw [massSum_all hmo', ← add_sum_erase univ _ (mem_univ i1), ← add_sum_erase (univ.erase i1) _
        (mem_erase.2 ⟨hne01, mem_univ i0⟩)]
    simp only [if_true, hne01, if_false]
    have : ∑ i ∈ (univ.erase i1).erase i0, massOf (if i = i1 then setMass (ins i) m1 else
        if i = i0 then setMass (ins i) m0 else ins i) = mk := by
      unfold massSum at hmk
      split_ifs at hmk with hh
      simp only [Option.some.injEq] at hmk
      rw [← hmk, ← add_sum_erase univ _ (mem_univ i1), ← add_sum_erase (univ.erase i1) _
        (mem_erase.2 ⟨hne01, mem_univ i0⟩)]
      simp only [mem_insert, mem_singleton, true_or, or_true, not_true, false_and, if_false, zero_add]
      apply sum_congr rfl
      intro i hi
      have h2 := (mem_erase.1 hi).1
      have h3 := (mem_erase.1 (mem_erase.1 hi).2).1
      by_cases hk : (ins i).kind = Kind.energyStream <;> simp [massOf, h2, h3, hk]
    rw [this]
    have f1 : massOf (setMass (ins i1) m1) = m1 := by simp [massOf, setMass, k1]
    have f0 : massOf (setMass (ins i0) m0) = m0 := by simp [massOf, setMass, k0]
    rw [f1, f0, hm0, hm1]
    field_simp
    ring

example : ∃ (ins : Fin 3 → Strm), (∀ i, (ins i).energy = none ↔ i = 0 ∨ i = 2) ∧
    (∀ i, eligible (ins i) = true ↔ i = 0 ∨ i = 2) ∧ (ins 0).Hm = some 2 ∧ (ins 2).Hm = some 5 ∧
    (∀ i, i ≠ 0 → i ≠ 2 → (ins i).kind ≠ Kind.energyStream → (ins i).m ≠ none) :=
  ⟨![stateOnly 2, known 10 2 1, stateOnly 5], by decide +kernel, by decide +kernel, rfl, rfl,
    by decide +kernel⟩

/-- **C07 fails** for two unknown mass flows: the streams to solve for are picked by "state
specified", not by "energy unknown". Inlet 0 is a completely known `StreamArgs` (mass enthalpy 2,
3 kg/s), inlet 1 has a state but no flow, inlet 2 has a mass flow but no state. The call overwrites
the known mass flow of inlet 0, reports success, and the energy of inlet 2 is still unknown. -/
theorem C07_two_unknowns_wrong_stream :
    ∃ (ins : Fin 3 → Strm) (outs : Fin 1 → Strm) (ins' : Fin 3 → Strm),
      (ins 0).energy = some 6 ∧ (ins 0).m = some 3 ∧
      energyBalance true ins outs = .done true ins' outs ∧
      (ins' 0).m ≠ some 3 ∧ (ins' 2).energy = none := by
  let i0 : Strm := ⟨.args, some 2, some 6, some 3, some 2, some 3, true, true⟩
  let i2 : Strm := ⟨.args, none, none, some 1, none, none, false, true⟩
  let ins : Fin 3 → Strm := ![i0, stateOnly 4, i2]
  let outs : Fin 1 → Strm := ![known 40 10 10]
  refine ⟨ins, outs, fun i => if i = 1 then setMass (ins i) (((-2) * 1 + 2 * 10 + 6 - 40) / (2 - 4))
    else if i = 0 then setMass (ins i) ((4 * 1 - 4 * 10 - 6 + 40) / (2 - 4)) else ins i,
    rfl, rfl, ?_, ?_, ?_⟩
  · have hlo : lastUnknown outs = none := by decide +kernel
    have e1 : (unknowns ins).card = 2 := by decide +kernel
    have e2 : (unknowns outs).card = 0 := by decide +kernel
    have hf : (List.finRange 3).filter (fun i => eligible (ins i)) = [0, 1] := by decide +kernel
    have hm : massSum ins {0, 1} = some 1 := by decide +kernel
    have hm' : massSum outs ∅ = some 10 := by decide +kernel
    have hk : knownEnergy ins = 6 := by decide +kernel
    have hk' : knownEnergy outs = 40 := by decide +kernel
    have h0 : (ins 0).Hm = some 2 := rfl
    have h1 : (ins 1).Hm = some 4 := rfl
    have ht : twoUnknown ins (massSum outs ∅) (knownEnergy outs) = some (some (fun i =>
        if i = 1 then setMass (ins i) (((-2) * 1 + 2 * 10 + 6 - 40) / (2 - 4))
        else if i = 0 then setMass (ins i) ((4 * 1 - 4 * 10 - 6 + 40) / (2 - 4)) else ins i)) := by
      simp only [twoUnknown, hf, h0, h1, hm, hm', hk, hk']
      rw [if_neg (by norm_num)]
    simp only [energyBalance, general, e1, e2, hlo, ht]
    cases lastUnknown ins <;> simp
  · simp [setMass]; norm_num
  · rfl

end Verif.EnergyBalance
