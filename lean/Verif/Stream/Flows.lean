import Mathlib.Tactic
import Mathlib.Algebra.BigOperators.Field

/-!
# Flow rates and composition of `EquilibriumStream` (`thermo/stream.py` 2595-2959) (C126)

The constructor of a stream: which arguments it takes, the composition and the mole flow it works out from them, the
enthalpy it hands to the flash, and the flows the finished stream shows.

Vectors of the `N` components are functions.  The flash is represented by the molar volume of the state it finds; the
molar volumes at the conditions `Vf_TP` and `Q_TP` are given numbers.  Division by zero, an exception in the code,
gives zero here; the theorems assume that the sums divided by are not zero.
-/

namespace Verif.Flows

open Finset

variable {N : ℕ}

/-- Arguments that give a composition, in the order in which they are counted (2617-2640). -/
inductive Comp | zs | ws | Vfls | Vfgs | ns | ms | Qls | Qgs
  deriving DecidableEq

/-- Total flow rates, in the order in which they are counted (2669-2683). -/
inductive Tot | m | n | Q | Ql | Qg
  deriving DecidableEq

def comps : List Comp := [.zs, .ws, .Vfls, .Vfgs, .ns, .ms, .Qls, .Qgs]
/-- The compositions that are flow rates at the same time (2657-2668). -/
def flowComps : List Comp := [.ns, .ms, .Qls, .Qgs]
def tots : List Tot := [.m, .n, .Q, .Ql, .Qg]

/-- What the constructor uses of the flasher: molecular weights, liquid reference volumes, the gas reference volume `R*T_gas_ref/P_gas_ref`. -/
structure Flasher (N : ℕ) where
  MW : Fin N → ℚ
  Vl : Fin N → ℚ
  Vg : ℚ

/-- The arguments. `VfTP`: the liquid volumes at `Vf_TP`; `QTP`: the molar volume at `Q_TP`, `QTPg` that of the ideal gas at `Q_TP`; `existing`: the mole fractions of `existing_flash`. -/
structure In (N : ℕ) where
  comp : Comp → Option (Fin N → ℚ)
  tot : Tot → Option ℚ
  H : Option ℚ := none
  H_mass : Option ℚ := none
  energy : Option ℚ := none
  energy_reactive : Option ℚ := none
  H_reactive : Option ℚ := none
  VfTP : Option (Fin N → ℚ) := none
  QTP : Option ℚ := none
  QTPg : Option ℚ := none
  existing : Option (Fin N → ℚ) := none

/-- The stream: the mole fractions of its state, its flows, its mass fractions and the enthalpies handed to the flash. -/
structure Out (N : ℕ) where
  zs : Fin N → ℚ
  n : ℚ
  m : ℚ
  ns : Fin N → ℚ
  ws : Fin N → ℚ
  ms : Fin N → ℚ
  H : Option ℚ
  H_reactive : Option ℚ

/-- `normalize` of `fluids`. -/
def normalize (v : Fin N → ℚ) : Fin N → ℚ := fun i => v i / ∑ j, v j
/-- `ws_to_zs` of `chemicals`. -/
def wsToZs (MW ws : Fin N → ℚ) : Fin N → ℚ := normalize fun i => ws i / MW i
/-- `Vfs_to_zs` of `chemicals`. -/
def vfsToZs (V vfs : Fin N → ℚ) : Fin N → ℚ := normalize fun i => vfs i / V i
/-- `zs_to_Vfs` of `chemicals`. -/
def zsToVfs (V zs : Fin N → ℚ) : Fin N → ℚ := normalize fun i => zs i * V i
/-- `property_molar_to_mass` of `chemicals`, here from mass flow to mole flow. -/
def toMoles (m MW : ℚ) : ℚ := m * 1000 / MW
/-- `property_mass_to_molar` of `chemicals`, here from mole flow to mass flow. -/
def toMass (n MW : ℚ) : ℚ := n * MW / 1000

/-- The number of compositions given (2616-2640). -/
def compCount (i : In N) : ℕ := (comps.filter fun c => (i.comp c).isSome).length
/-- The number of flow rates given (2656-2683), one less if an energy and an enthalpy are given (2685-2687). -/
def flowCount (i : In N) : ℕ :=
  let k := (flowComps.filter fun c => (i.comp c).isSome).length + (tots.filter fun t => (i.tot t).isSome).length
  if 1 < k ∧ i.energy.isSome = true ∧ (i.H.isSome = true ∨ i.H_mass.isSome = true) then k - 1 else k

/-- The mole fractions (2641-2645, 2700-2719). -/
def zsOf (fl : Flasher N) (i : In N) : Fin N → ℚ :=
  match i.comp .ns, i.comp .ms, i.comp .ws, i.comp .Qls, i.comp .Vfls, i.comp .Qgs, i.comp .Vfgs with
  | some ns, _, _, _, _, _, _ => normalize ns
  | _, some ms, _, _, _, _, _ => wsToZs fl.MW (normalize ms)
  | _, _, some ws, _, _, _, _ => wsToZs fl.MW ws
  | _, _, _, _, some vfs, _, _ => vfsToZs (i.VfTP.getD fl.Vl) vfs
  | _, _, _, some qls, _, _, _ => vfsToZs (i.VfTP.getD fl.Vl) (normalize qls)
  | _, _, _, _, _, some qgs, _ => normalize qgs
  | _, _, _, _, _, _, some vfgs => vfgs
  | _, _, _, _, _, _, _ => (i.comp .zs).getD (i.existing.getD 0)

/-- `_MW` (2721-2726). -/
def mwOf (fl : Flasher N) (zs : Fin N → ℚ) : ℚ := ∑ i, zs i * fl.MW i

/-- The mole flow needed for an energy (2731-2744). -/
def nEnergy (fl : Flasher N) (i : In N) (MW : ℚ) : Option ℚ :=
  match i.tot .m, i.comp .ns, i.comp .ms, i.comp .Qls, i.comp .Qgs with
  | some m, _, _, _, _ => some (toMoles m MW)
  | _, some ns, _, _, _ => some (∑ k, ns k)
  | _, _, some ms, _, _ => some (toMoles (∑ k, ms k) MW)
  | _, _, _, some qls, _ => some (∑ k, qls k / fl.Vl k)
  | _, _, _, _, some qgs => some ((∑ k, qgs k) / fl.Vg)
  | _, _, _, _, _ => i.tot .n

/-- The same for `energy_reactive` (2747-2752): the volumes are missing. -/
def nReactive (i : In N) (MW : ℚ) : Option ℚ :=
  match i.tot .m, i.comp .ns, i.comp .ms with
  | some m, _, _ => some (toMoles m MW)
  | _, some ns, _ => some (∑ k, ns k)
  | _, _, some ms => some (toMoles (∑ k, ms k) MW)
  | _, _, _ => i.tot .n

/-- The mole flow, the enthalpy and the reactive enthalpy after 2729-2753; `none / number` is a `TypeError`. -/
def energyStage (fl : Flasher N) (i : In N) (MW : ℚ) : Except String (Option ℚ × Option ℚ × Option ℚ) :=
  match i.energy, i.energy_reactive with
  | some e, _ => match nEnergy fl i MW with
    | none => .error "TypeError"
    | some n => .ok (some n, some (e / n), i.H_reactive)
  | none, some e => match nReactive i MW with
    | none => .error "TypeError"
    | some n => .ok (some n, i.H, some (e / n))
  | none, none => .ok (i.tot .n, i.H, i.H_reactive)

/-- The mole flow (2787-2845); `V` is the molar volume of the state found. Nothing is left over at the end, because one flow rate is given. -/
def nOf (fl : Flasher N) (V : ℚ) (i : In N) (zs : Fin N → ℚ) (MW : ℚ) : ℚ :=
  match i.tot .m, i.comp .ns, i.comp .ms, i.tot .Q, i.comp .Qls, i.tot .Ql, i.tot .Qg, i.comp .Qgs with
  | some m, _, _, _, _, _, _, _ => toMoles m MW
  | _, some ns, _, _, _, _, _, _ => ∑ k, ns k
  | _, _, some ms, _, _, _, _, _ => toMoles (∑ k, ms k) MW
  | _, _, _, some Q, _, _, _, _ => Q / i.QTP.getD V
  | _, _, _, _, some qls, _, _, _ => ∑ k, qls k / fl.Vl k
  | _, _, _, _, _, some Ql, _, _ => ∑ k, Ql * zsToVfs fl.Vl zs k / fl.Vl k
  | _, _, _, _, _, _, some Qg, _ => ∑ k, Qg * zs k / fl.Vg
  | _, _, _, _, _, _, _, some qgs => (∑ k, qgs k) / i.QTPg.getD fl.Vg
  | _, _, _, _, _, _, _, _ => 0

/-- `EquilibriumStream.__init__` (2595-2851). -/
def stream (fl : Flasher N) (V : ℚ) (i : In N) : Except String (Out N) :=
  if compCount i = 0 ∧ i.existing = none then .error "ValueError"
  else if 1 < compCount i then .error "ValueError"
  else if flowCount i ≠ 1 then .error "ValueError"
  else
    let zs := zsOf fl i
    let MW := mwOf fl zs
    (energyStage fl i MW).map fun r =>
      let n := r.1.getD (nOf fl V i zs MW)
      let m := toMass n MW
      let ws := fun k => zs k * fl.MW k / MW
      ⟨i.existing.getD zs, n, m, fun k => n * zs k, ws, fun k => m * ws k, r.2.1, r.2.2⟩

/-- `Q` (2858), `Qgs` (2863-2869), `Qls` (2873-2876), `Ql` (2881). -/
def Out.Q (o : Out N) (V : ℚ) : ℚ := o.n * V
@[inherit_doc Out.Q] def Out.Qgs (o : Out N) (fl : Flasher N) : Fin N → ℚ := fun k => o.zs k * (fl.Vg * o.n)
@[inherit_doc Out.Q] def Out.Qls (o : Out N) (fl : Flasher N) : Fin N → ℚ := fun k => o.ns k * fl.Vl k
@[inherit_doc Out.Q] def Out.Ql (o : Out N) (fl : Flasher N) : ℚ := ∑ k, o.Qls fl k

/-! ## One source -/

theorem one_of_count {α β : Type} [DecidableEq α] (l : List α) (g : α → Option β) (h : (l.filter fun a => (g a).isSome).length ≤ 1) (a b : α) (ha : a ∈ l) (hb : b ∈ l) (ga : g a ≠ none) (gb : g b ≠ none) : a = b := by
  have hs : ∀ c : α, g c ≠ none → (g c).isSome = true := fun c hc => by
    cases hg : g c with
    | none => exact absurd hg hc
    | some v => rfl
  have ma : a ∈ l.filter fun a => (g a).isSome := List.mem_filter.2 ⟨ha, hs a ga⟩
  have mb : b ∈ l.filter fun a => (g a).isSome := List.mem_filter.2 ⟨hb, hs b gb⟩
  match hl : l.filter fun a => (g a).isSome with
  | [] => rw [hl] at ma; simp at ma
  | [x] => rw [hl] at ma mb; simp at ma mb; rw [ma, mb]
  | x :: y :: t => rw [hl] at h; simp at h

theorem mem_comps (c : Comp) : c ∈ comps := by cases c <;> decide
theorem mem_tots (t : Tot) : t ∈ tots := by cases t <;> decide

/-- The stages of a stream that is accepted. -/
theorem ok_iff (fl : Flasher N) (V : ℚ) (i : In N) (o : Out N) (h : stream fl V i = .ok o) :
    compCount i ≤ 1 ∧ flowCount i = 1 ∧ (compCount i ≠ 0 ∨ i.existing ≠ none) ∧ ∃ r, energyStage fl i (mwOf fl (zsOf fl i)) = .ok r ∧
      o.zs = i.existing.getD (zsOf fl i) ∧ o.n = r.1.getD (nOf fl V i (zsOf fl i) (mwOf fl (zsOf fl i))) ∧ o.m = toMass o.n (mwOf fl (zsOf fl i)) ∧ (o.ns = fun k => o.n * zsOf fl i k) ∧
      (o.ws = fun k => zsOf fl i k * fl.MW k / mwOf fl (zsOf fl i)) ∧ (o.ms = fun k => o.m * o.ws k) ∧ o.H = r.2.1 ∧ o.H_reactive = r.2.2 := by
  unfold stream at h
  split_ifs at h with h1 h2 h3
  dsimp only at h
  cases he : energyStage fl i (mwOf fl (zsOf fl i)) with
  | error e => rw [he] at h; simp [Except.map] at h
  | ok r =>
    rw [he] at h
    simp only [Except.map, Except.ok.injEq] at h
    refine ⟨by omega, by omega, ?_, r, rfl, ?_⟩
    · by_contra hc
      push Not at hc
      exact h1 hc
    · rw [← h]
      exact ⟨rfl, rfl, rfl, rfl, rfl, rfl, rfl, rfl⟩

/-- Without both an energy and an enthalpy, a stream that is accepted has exactly one flow rate: a vector of flows excludes all totals, and two totals exclude each other. -/
theorem flow_unique (i : In N) (h : flowCount i = 1) (hE : i.energy = none ∨ (i.H = none ∧ i.H_mass = none)) :
    (flowComps.filter fun c => (i.comp c).isSome).length + (tots.filter fun t => (i.tot t).isSome).length = 1 := by
  unfold flowCount at h
  dsimp only at h
  rw [if_neg] at h
  · exact h
  · rintro ⟨_, he, hh⟩
    rcases hE with hE | ⟨h1, h2⟩
    · rw [hE] at he; simp at he
    · rw [h1, h2] at hh; simp at hh

theorem no_tot (i : In N) (h : flowCount i = 1) (hE : i.energy = none ∨ (i.H = none ∧ i.H_mass = none)) (c : Comp) (hc : c ∈ flowComps) (v : Fin N → ℚ) (hv : i.comp c = some v) (t : Tot) : i.tot t = none := by
  have hu := flow_unique i h hE
  have h1 : 0 < (flowComps.filter fun c => (i.comp c).isSome).length := List.length_pos_of_mem (List.mem_filter.2 ⟨hc, by rw [hv]; rfl⟩)
  by_contra hne
  have h2 : 0 < (tots.filter fun t => (i.tot t).isSome).length := by
    apply List.length_pos_of_mem (a := t)
    refine List.mem_filter.2 ⟨mem_tots t, ?_⟩
    cases ht : i.tot t with
    | none => exact absurd ht hne
    | some x => rfl
  omega

theorem no_comp (i : In N) (h : compCount i ≤ 1) (c : Comp) (v : Fin N → ℚ) (hv : i.comp c = some v) (d : Comp) (hd : d ≠ c) : i.comp d = none := by
  by_contra hne
  exact hd (one_of_count comps i.comp h d c (mem_comps d) (mem_comps c) hne (by rw [hv]; simp))

theorem no_flow (i : In N) (h : flowCount i = 1) (hE : i.energy = none ∨ (i.H = none ∧ i.H_mass = none)) (t : Tot) (v : ℚ) (hv : i.tot t = some v) : (∀ s, s ≠ t → i.tot s = none) ∧ ∀ c ∈ flowComps, i.comp c = none := by
  have hu := flow_unique i h hE
  have h1 : 0 < (tots.filter fun t => (i.tot t).isSome).length := List.length_pos_of_mem (List.mem_filter.2 ⟨mem_tots t, by rw [hv]; rfl⟩)
  constructor
  · intro s hs
    by_contra hne
    exact hs (one_of_count tots i.tot (by omega) s t (mem_tots s) (mem_tots t) hne (by rw [hv]; simp))
  · intro c hc
    by_contra hne
    have h2 : 0 < (flowComps.filter fun c => (i.comp c).isSome).length := by
      apply List.length_pos_of_mem (a := c)
      refine List.mem_filter.2 ⟨hc, ?_⟩
      cases ht : i.comp c with
      | none => exact absurd ht hne
      | some x => rfl
    omega

/-- The mole flow of the energy stage is that of the last one. -/
theorem n_eq (fl : Flasher N) (V : ℚ) (i : In N) (r : Option ℚ × Option ℚ × Option ℚ) (MW : ℚ) (zs : Fin N → ℚ) (he : energyStage fl i MW = .ok r) (x : ℚ) (hn : i.tot .n = none) (h0 : nOf fl V i zs MW = x)
    (h1 : ∀ y, nEnergy fl i MW = some y → y = x) (h2 : ∀ y, nReactive i MW = some y → y = x) : r.1.getD (nOf fl V i zs MW) = x := by
  unfold energyStage at he
  split at he
  · split at he
    · simp at he
    · rename_i y hy
      simp only [Except.ok.injEq] at he
      rw [← he]
      exact h1 _ hy
  · split at he
    · simp at he
    · rename_i y hy
      simp only [Except.ok.injEq] at he
      rw [← he]
      exact h2 _ hy
  · simp only [Except.ok.injEq] at he
    rw [← he, hn]
    exact h0

/-- Mole flows given are the mole flows of the stream, and its total and mole fractions are theirs. -/
theorem C126_ns (fl : Flasher N) (V : ℚ) (i : In N) (o : Out N) (h : stream fl V i = .ok o) (hE : i.energy = none ∨ (i.H = none ∧ i.H_mass = none)) (hx : i.existing = none) (v : Fin N → ℚ) (hv : i.comp .ns = some v)
    (hs : ∑ k, v k ≠ 0) : o.ns = v ∧ o.n = ∑ k, v k ∧ o.zs = fun k => v k / ∑ j, v j := by
  obtain ⟨hc, hf, _, r, he, hzs, hn, _, hns, _⟩ := ok_iff fl V i o h
  have ht := no_tot i hf hE .ns (by decide) v hv
  have hz : zsOf fl i = normalize v := by simp only [zsOf, hv]
  have e : o.n = ∑ k, v k := by
    rw [hn]
    refine n_eq fl V i r _ _ he _ (ht _) ?_ ?_ ?_
    · simp only [nOf, ht, hv]
    · intro y hy
      simp only [nEnergy, ht, hv, Option.some.injEq] at hy
      exact hy.symm
    · intro y hy
      simp only [nReactive, ht, hv, Option.some.injEq] at hy
      exact hy.symm
  refine ⟨?_, e, ?_⟩
  · rw [hns, hz, e]
    funext k
    simp only [normalize]
    field_simp
  · rw [hzs, hx, hz]
    rfl

/-- Mass flows given are the mass flows of the stream, and their sum is its mass flow. -/
theorem C126_ms (fl : Flasher N) (V : ℚ) (i : In N) (o : Out N) (h : stream fl V i = .ok o) (hE : i.energy = none ∨ (i.H = none ∧ i.H_mass = none)) (v : Fin N → ℚ) (hv : i.comp .ms = some v)
    (hs : ∑ k, v k ≠ 0) (hM : ∀ k, fl.MW k ≠ 0) (hw : ∑ k, v k / fl.MW k ≠ 0) : o.ms = v ∧ o.m = ∑ k, v k := by
  obtain ⟨hc, hf, _, r, he, hzs, hn, hm, hns, hws, hms, _⟩ := ok_iff fl V i o h
  have ht := no_tot i hf hE .ms (by decide) v hv
  have hcn := no_comp i hc .ms v hv
  have hz : zsOf fl i = wsToZs fl.MW (normalize v) := by simp only [zsOf, hv, hcn .ns (by decide)]
  have hz' : ∀ k, zsOf fl i k = v k / fl.MW k / ∑ j, v j / fl.MW j := by
    intro k
    rw [hz]
    simp only [wsToZs, normalize]
    have e : ∑ j, v j / (∑ l, v l) / fl.MW j = (∑ j, v j / fl.MW j) / ∑ l, v l := by
      rw [Finset.sum_div]
      exact Finset.sum_congr rfl fun j _ => by rw [div_right_comm]
    rw [e]
    have := hM k
    field_simp
  have hMW : mwOf fl (zsOf fl i) = (∑ k, v k) / ∑ k, v k / fl.MW k := by
    unfold mwOf
    rw [Finset.sum_div]
    apply Finset.sum_congr rfl
    intro k _
    rw [hz' k]
    have := hM k
    field_simp
  have hMW0 : mwOf fl (zsOf fl i) ≠ 0 := by rw [hMW]; exact div_ne_zero hs hw
  have en : o.n = toMoles (∑ k, v k) (mwOf fl (zsOf fl i)) := by
    rw [hn]
    refine n_eq fl V i r _ _ he _ (ht _) ?_ ?_ ?_
    · simp only [nOf, ht, hv, hcn .ns (by decide)]
    · intro y hy
      simp only [nEnergy, ht, hv, hcn .ns (by decide), Option.some.injEq] at hy
      exact hy.symm
    · intro y hy
      simp only [nReactive, ht, hv, hcn .ns (by decide), Option.some.injEq] at hy
      exact hy.symm
  have em : o.m = ∑ k, v k := by
    rw [hm, en]
    unfold toMass toMoles
    field_simp
  refine ⟨?_, em⟩
  rw [hms, hws, em]
  funext k
  dsimp only
  rw [hMW, hz' k]
  have := hM k
  field_simp

/-- Liquid volume flows given are those of the stream, if they are not meant at other conditions (`Vf_TP`). -/
theorem C126_Qls_partial (fl : Flasher N) (V : ℚ) (i : In N) (o : Out N) (h : stream fl V i = .ok o) (hE : i.energy = none ∨ (i.H = none ∧ i.H_mass = none)) (hT : i.VfTP = none) (v : Fin N → ℚ)
    (hv : i.comp .Qls = some v) (hs : ∑ k, v k ≠ 0) (hV : ∀ k, fl.Vl k ≠ 0) (hw : ∑ k, v k / fl.Vl k ≠ 0) : o.Qls fl = v := by
  obtain ⟨hc, hf, _, r, he, hzs, hn, hm, hns, hws, hms, _⟩ := ok_iff fl V i o h
  have ht := no_tot i hf hE .Qls (by decide) v hv
  have hcn := no_comp i hc .Qls v hv
  have hz' : ∀ k, zsOf fl i k = v k / fl.Vl k / ∑ j, v j / fl.Vl j := by
    intro k
    have hz : zsOf fl i = vfsToZs fl.Vl (normalize v) := by
      simp only [zsOf, hv, hcn .ns (by decide), hcn .ms (by decide), hcn .ws (by decide), hcn .Vfls (by decide), hT, Option.getD_none]
    rw [hz]
    simp only [vfsToZs, normalize]
    have e : ∑ j, v j / (∑ l, v l) / fl.Vl j = (∑ j, v j / fl.Vl j) / ∑ l, v l := by
      rw [Finset.sum_div]
      exact Finset.sum_congr rfl fun j _ => by rw [div_right_comm]
    rw [e]
    have := hV k
    field_simp
  have en : o.n = ∑ k, v k / fl.Vl k := by
    rw [hn]
    refine n_eq fl V i r _ _ he _ (ht _) ?_ ?_ ?_
    · simp only [nOf, ht, hv, hcn .ns (by decide), hcn .ms (by decide)]
    · intro y hy
      simp only [nEnergy, ht, hv, hcn .ns (by decide), hcn .ms (by decide), Option.some.injEq] at hy
      exact hy.symm
    · intro y hy
      simp only [nReactive, ht, hcn .ns (by decide), hcn .ms (by decide)] at hy
      simp at hy
  funext k
  simp only [Out.Qls, hns, en, hz' k]
  have := hV k
  field_simp

/-- Gas volume flows given are those of the stream, if they are not meant at other conditions (`Q_TP`). -/
theorem C126_Qgs_partial (fl : Flasher N) (V : ℚ) (i : In N) (o : Out N) (h : stream fl V i = .ok o) (hE : i.energy = none ∨ (i.H = none ∧ i.H_mass = none)) (hT : i.QTPg = none) (hx : i.existing = none) (v : Fin N → ℚ)
    (hv : i.comp .Qgs = some v) (hs : ∑ k, v k ≠ 0) (hV : fl.Vg ≠ 0) : o.Qgs fl = v := by
  obtain ⟨hc, hf, _, r, he, hzs, hn, hm, hns, hws, hms, _⟩ := ok_iff fl V i o h
  have ht := no_tot i hf hE .Qgs (by decide) v hv
  have hcn := no_comp i hc .Qgs v hv
  have hz : zsOf fl i = normalize v := by
    simp only [zsOf, hv, hcn .ns (by decide), hcn .ms (by decide), hcn .ws (by decide), hcn .Vfls (by decide), hcn .Qls (by decide)]
  have en : o.n = (∑ k, v k) / fl.Vg := by
    rw [hn]
    refine n_eq fl V i r _ _ he _ (ht _) ?_ ?_ ?_
    · simp only [nOf, ht, hv, hcn .ns (by decide), hcn .ms (by decide), hcn .Qls (by decide), hT, Option.getD_none]
    · intro y hy
      simp only [nEnergy, ht, hv, hcn .ns (by decide), hcn .ms (by decide), hcn .Qls (by decide), Option.some.injEq] at hy
      exact hy.symm
    · intro y hy
      simp only [nReactive, ht, hcn .ns (by decide), hcn .ms (by decide)] at hy
      simp at hy
  funext k
  simp only [Out.Qgs, hzs, hx, Option.getD_none, hz, en, normalize]
  field_simp

/-- Total flows given are those of the stream: moles and mass for any composition; actual volume at the state found; liquid and gas reference volumes for mole fractions that sum to one. -/
theorem C126_totals (fl : Flasher N) (V : ℚ) (i : In N) (o : Out N) (h : stream fl V i = .ok o) (hE : i.energy = none ∨ (i.H = none ∧ i.H_mass = none)) (x : ℚ) :
    (i.tot .n = some x → o.n = x) ∧ (i.tot .m = some x → mwOf fl (zsOf fl i) ≠ 0 → o.m = x) ∧ (i.tot .Q = some x → i.QTP = none → V ≠ 0 → o.Q V = x) ∧
    (i.tot .Ql = some x → ∑ k, zsOf fl i k = 1 → (∀ k, fl.Vl k ≠ 0) → ∑ k, zsOf fl i k * fl.Vl k ≠ 0 → o.Ql fl = x) ∧
    (i.tot .Qg = some x → i.existing = none → ∑ k, zsOf fl i k = 1 → fl.Vg ≠ 0 → ∑ k, o.Qgs fl k = x) := by
  obtain ⟨hc, hf, _, r, he, hzs, hn, hm, hns, hws, hms, _⟩ := ok_iff fl V i o h
  refine ⟨?_, ?_, ?_, ?_, ?_⟩
  · intro hx
    obtain ⟨ht, hcf⟩ := no_flow i hf hE .n x hx
    rw [hn]
    have h1 : ∀ MW y, nEnergy fl i MW = some y → y = x := by
      intro MW y hy
      simp only [nEnergy, ht .m (by decide), hcf .ns (by decide), hcf .ms (by decide), hcf .Qls (by decide), hcf .Qgs (by decide), hx, Option.some.injEq] at hy
      exact hy.symm
    have h2 : ∀ MW y, nReactive i MW = some y → y = x := by
      intro MW y hy
      simp only [nReactive, ht .m (by decide), hcf .ns (by decide), hcf .ms (by decide), hx, Option.some.injEq] at hy
      exact hy.symm
    unfold energyStage at he
    split at he
    · split at he
      · simp at he
      · rename_i y hy
        simp only [Except.ok.injEq] at he
        rw [← he]
        exact h1 _ _ hy
    · split at he
      · simp at he
      · rename_i y hy
        simp only [Except.ok.injEq] at he
        rw [← he]
        exact h2 _ _ hy
    · simp only [Except.ok.injEq] at he
      rw [← he, hx]
      rfl
  · intro hx h0
    obtain ⟨ht, hcf⟩ := no_flow i hf hE .m x hx
    have en : o.n = toMoles x (mwOf fl (zsOf fl i)) := by
      rw [hn]
      refine n_eq fl V i r _ _ he _ (ht .n (by decide)) ?_ ?_ ?_
      · simp only [nOf, hx]
      · intro y hy
        simp only [nEnergy, hx, Option.some.injEq] at hy
        exact hy.symm
      · intro y hy
        simp only [nReactive, hx, Option.some.injEq] at hy
        exact hy.symm
    rw [hm, en]
    unfold toMass toMoles
    field_simp
  · intro hx hq hV
    obtain ⟨ht, hcf⟩ := no_flow i hf hE .Q x hx
    have en : o.n = x / V := by
      rw [hn]
      refine n_eq fl V i r _ _ he _ (ht .n (by decide)) ?_ ?_ ?_
      · simp only [nOf, hx, ht .m (by decide), hcf .ns (by decide), hcf .ms (by decide), hq, Option.getD_none]
      · intro y hy
        simp only [nEnergy, ht .m (by decide), ht .n (by decide), hcf .ns (by decide), hcf .ms (by decide), hcf .Qls (by decide), hcf .Qgs (by decide)] at hy
        simp at hy
      · intro y hy
        simp only [nReactive, ht .m (by decide), ht .n (by decide), hcf .ns (by decide), hcf .ms (by decide)] at hy
        simp at hy
    rw [Out.Q, en]
    field_simp
  · intro hx h1 hV h0
    obtain ⟨ht, hcf⟩ := no_flow i hf hE .Ql x hx
    have en : o.n = x / ∑ k, zsOf fl i k * fl.Vl k := by
      rw [hn]
      refine n_eq fl V i r _ _ he _ (ht .n (by decide)) ?_ ?_ ?_
      · simp only [nOf, hx, ht .m (by decide), ht .Q (by decide), hcf .ns (by decide), hcf .ms (by decide), hcf .Qls (by decide)]
        have e : ∀ k, x * zsToVfs fl.Vl (zsOf fl i) k / fl.Vl k = x / (∑ k, zsOf fl i k * fl.Vl k) * zsOf fl i k := by
          intro k
          have := hV k
          simp only [zsToVfs, normalize]
          field_simp
        rw [Finset.sum_congr rfl fun k _ => e k, ← Finset.mul_sum, h1, mul_one]
      · intro y hy
        simp only [nEnergy, ht .m (by decide), ht .n (by decide), hcf .ns (by decide), hcf .ms (by decide), hcf .Qls (by decide), hcf .Qgs (by decide)] at hy
        simp at hy
      · intro y hy
        simp only [nReactive, ht .m (by decide), ht .n (by decide), hcf .ns (by decide), hcf .ms (by decide)] at hy
        simp at hy
    simp only [Out.Ql, Out.Qls, hns, en]
    rw [Finset.sum_congr rfl fun k _ => mul_assoc (x / ∑ k, zsOf fl i k * fl.Vl k) (zsOf fl i k) (fl.Vl k), ← Finset.mul_sum]
    field_simp
  · intro hx hex h1 hV
    obtain ⟨ht, hcf⟩ := no_flow i hf hE .Qg x hx
    have en : o.n = x / fl.Vg := by
      rw [hn]
      refine n_eq fl V i r _ _ he _ (ht .n (by decide)) ?_ ?_ ?_
      · simp only [nOf, hx, ht .m (by decide), ht .Q (by decide), ht .Ql (by decide), hcf .ns (by decide), hcf .ms (by decide), hcf .Qls (by decide)]
        rw [← Finset.sum_div, ← Finset.mul_sum, h1, mul_one]
      · intro y hy
        simp only [nEnergy, ht .m (by decide), ht .n (by decide), hcf .ns (by decide), hcf .ms (by decide), hcf .Qls (by decide), hcf .Qgs (by decide)] at hy
        simp at hy
      · intro y hy
        simp only [nReactive, ht .m (by decide), ht .n (by decide), hcf .ns (by decide), hcf .ms (by decide)] at hy
        simp at hy
    simp only [Out.Qgs, hzs, hex, Option.getD_none, en]
    rw [← Finset.sum_mul, h1]
    field_simp

/-- A flasher with two components, and arguments for examples. -/
def fl2 : Flasher 2 := ⟨![18, 46], ![18, 58], 24⟩
def args (c : Comp) (v : Fin 2 → ℚ) (t : List (Tot × ℚ)) : In 2 := { comp := fun d => if d = c then some v else none, tot := fun s => t.lookup s }

example : ((stream fl2 20 (args .ns ![1, 3] [])).toOption.map fun o => (o.n, o.m)) = some (4, 39 / 250) := by decide +kernel
example : ((stream fl2 20 (args .ms ![18, 46] [])).toOption.map fun o => (o.n, o.m, o.ms 0, o.ms 1)) = some (2000, 64, 18, 46) := by decide +kernel
example : ((stream fl2 20 (args .Qls ![18, 116] [])).toOption.map fun o => (o.n, o.Qls fl2 0, o.Qls fl2 1)) = some (3, 18, 116) := by decide +kernel
example : ((stream fl2 20 (args .Qgs ![24, 48] [])).toOption.map fun o => (o.n, o.Qgs fl2 0, o.Qgs fl2 1)) = some (3, 24, 48) := by decide +kernel
example : ((stream fl2 20 (args .zs ![1 / 4, 3 / 4] [(.Ql, 48)])).toOption.map fun o => (o.n, o.Ql fl2)) = some (1, 48) := by decide +kernel

/-- The flows of a stream agree with each other: mass flows are mole flows times molecular weights, and add up to the mass flow; mole flows add up to the mole flow if the mole fractions sum to one. -/
theorem C126_consistent (fl : Flasher N) (V : ℚ) (i : In N) (o : Out N) (h : stream fl V i = .ok o) (h0 : mwOf fl (zsOf fl i) ≠ 0) : (∀ k, o.ms k = o.ns k * fl.MW k / 1000) ∧ ∑ k, o.ms k = o.m ∧
    (∑ k, zsOf fl i k = 1 → ∑ k, o.ns k = o.n) := by
  obtain ⟨hc, hf, _, r, he, hzs, hn, hm, hns, hws, hms, _⟩ := ok_iff fl V i o h
  have e : ∀ k, o.ms k = o.ns k * fl.MW k / 1000 := by
    intro k
    rw [hms, hws, hns, hm]
    unfold toMass
    field_simp
  refine ⟨e, ?_, ?_⟩
  · rw [Finset.sum_congr rfl fun k _ => e k, ← Finset.sum_div, hm, hns]
    unfold toMass mwOf
    rw [Finset.mul_sum]
    congr 1
    exact Finset.sum_congr rfl fun k _ => by ring
  · intro h1
    rw [hns, ← Finset.mul_sum, h1, mul_one]

/-- An energy given with one flow rate of a kind the code knows is the enthalpy handed to the flash times the mole flow. -/
theorem C126_energy_partial (fl : Flasher N) (V : ℚ) (i : In N) (o : Out N) (h : stream fl V i = .ok o) (e : ℚ) (hE : i.energy = some e) (h0 : o.n ≠ 0) : ∃ H, o.H = some H ∧ H * o.n = e := by
  obtain ⟨hc, hf, _, r, he, hzs, hn, hm, hns, hws, hms, hH, _⟩ := ok_iff fl V i o h
  unfold energyStage at he
  rw [hE] at he
  dsimp only at he
  split at he
  · simp at he
  · rename_i y hy
    simp only [Except.ok.injEq] at he
    refine ⟨e / y, by rw [hH, ← he], ?_⟩
    have : o.n = y := by rw [hn, ← he]; rfl
    rw [this] at h0 ⊢
    field_simp

example : ((stream fl2 20 { args .ns ![1, 3] [] with energy := some 100 }).toOption.map fun o => (o.n, o.H)) = some (4, some 25) := by decide +kernel

/-- With the volumetric flows `Q`, `Ql` and `Qg` every energy is refused by accident, as is a reactive energy also with `Qls` and `Qgs`; and an energy with an enthalpy, which the message offers as a flow rate, is none. -/
theorem C126_energy_fails : (∀ t ∈ [Tot.Q, .Ql, .Qg], (match stream fl2 20 { args .zs ![1 / 4, 3 / 4] [(t, 5)] with energy := some 100 } with | .error s => s | .ok _ => "") = "TypeError") ∧
    (∀ c ∈ [Comp.Qls, .Qgs], (match stream fl2 20 { args c ![18, 116] [] with energy_reactive := some 100 } with | .error s => s | .ok _ => "") = "TypeError") ∧
    (match stream fl2 20 { args .zs ![1 / 4, 3 / 4] [] with energy := some 100, H := some 10 } with | .error s => s | .ok _ => "") = "ValueError" := by decide +kernel

/-- The molar enthalpy the flash works with (`flash/flash_base.py` 293-294): a mass enthalpy takes the place of a molar one. -/
def flashH (fl : Flasher N) (i : In N) (o : Out N) : Option ℚ := match i.H_mass with
  | some h => some (toMass h (mwOf fl (zsOf fl i)))
  | none => o.H

/-- With a mass enthalpy the energy is dropped without a word. -/
theorem C126_mass_enthalpy_fails : ((stream fl2 20 { args .ns ![1, 3] [] with energy := some 100, H_mass := some 1000 }).toOption.map fun o =>
    (flashH fl2 { args .ns ![1, 3] [] with energy := some 100, H_mass := some 1000 } o, o.n)) = some (some 39, 4) := by decide +kernel

/-- With an energy and an enthalpy two flow rates are accepted and one of them is dropped, as is the enthalpy. -/
theorem C126_two_flows_fails : ((stream fl2 20 { args .zs ![1 / 4, 3 / 4] [(.n, 7), (.m, 39)] with energy := some 100, H := some 3 }).toOption.map fun o => (o.n, o.m, o.H)) = some (1000, 39, some (1 / 10)) := by decide +kernel

/-- Liquid flows at conditions `Vf_TP` have the composition of these conditions and the mole flow of the reference conditions: the stream shows them at neither. -/
theorem C126_VfTP_fails : ((stream fl2 20 { args .Qls ![18, 116] [] with VfTP := some ![20, 29] }).toOption.map fun o => (o.n, o.Qls fl2 0, o.Qls fl2 1, o.ns 0 * 20, o.ns 1 * 29)) =
    some (3, 486 / 49, 6960 / 49, 540 / 49, 3480 / 49) := by decide +kernel

/-- With a flash that was done before, the composition of the flows is not compared with it: the mole flows of the stream are not its flow times its mole fractions. -/
theorem C126_existing_fails : ((stream fl2 20 { args .ns ![1, 3] [] with existing := some ![1 / 2, 1 / 2] }).toOption.map fun o => (o.n * o.zs 0, o.ns 0)) = some (2, 1) := by decide +kernel

/-- Mole fractions are taken as they are: with ones that do not sum to one the mole flows do not add up to the mole flow, and a liquid flow rate is not that of the stream. -/
theorem C126_sum_fails : ((stream fl2 20 (args .zs ![1, 3] [(.n, 5)])).toOption.map fun o => (o.n, o.ns 0 + o.ns 1)) = some (5, 20) ∧
    ((stream fl2 20 (args .zs ![1, 3] [(.Ql, 192)])).toOption.map fun o => o.Ql fl2) = some 768 := by decide +kernel

/-! ## Back to arguments -/

/-- `composition_spec` (2616-2640): the last composition given. -/
def compSpec (i : In N) : Option Comp := (comps.filter fun c => (i.comp c).isSome).getLast?
/-- `flow_spec` (2656-2683): the last flow rate given, totals after vectors. -/
def flowSpec (i : In N) : Option Tot := (tots.filter fun t => (i.tot t).isSome).getLast?

/-- `StreamArgs()` (2890-2906): the enthalpy the flash was made with, the composition and the flow rate; `Vf_TP`, `Q_TP` and the energy are left out. A vector of flows is the composition at the same time. The flash turns a mass or reactive enthalpy into a molar one; they are kept as they are here. -/
def streamArgs (i : In N) (o : Out N) : In N where
  comp c := if some c = compSpec i then i.comp c else none
  tot t := if some t = flowSpec i then i.tot t else none
  H := o.H
  H_mass := i.H_mass
  H_reactive := o.H_reactive

theorem last_spec {α β : Type} [DecidableEq α] (l : List α) (g : α → Option β) (hl : ∀ a, a ∈ l) (h : (l.filter fun a => (g a).isSome).length ≤ 1) (a : α) :
    (if some a = (l.filter fun a => (g a).isSome).getLast? then g a else none) = g a := by
  split_ifs with hif
  · rfl
  · cases hg : g a with
    | none => rfl
    | some v =>
      have ma : a ∈ l.filter fun a => (g a).isSome := List.mem_filter.2 ⟨hl a, by rw [hg]; rfl⟩
      match hl : l.filter fun a => (g a).isSome with
      | [] => rw [hl] at ma; simp at ma
      | [x] => rw [hl] at ma hif; simp at ma hif; exact absurd ma hif
      | x :: y :: t => rw [hl] at h; simp at h

/-- The stream made from the arguments of a stream is that stream: same composition, flows and enthalpy. Streams with `Vf_TP`, `Q_TP`, an earlier flash or a second flow rate are left out. -/
theorem C126_args_partial (fl : Flasher N) (V : ℚ) (i : In N) (o : Out N) (h : stream fl V i = .ok o) (hE : i.energy = none ∨ (i.H = none ∧ i.H_mass = none)) (hV : i.VfTP = none) (hQ : i.QTP = none) (hG : i.QTPg = none)
    (hx : i.existing = none) : stream fl V (streamArgs i o) = .ok o := by
  obtain ⟨hc, hf, h0, r, he, hzs, hn, hm, hns, hws, hms, hH, hHr⟩ := ok_iff fl V i o h
  have hu := flow_unique i hf hE
  have ec : (streamArgs i o).comp = i.comp := by
    funext c
    exact last_spec comps i.comp mem_comps hc c
  have et : (streamArgs i o).tot = i.tot := by
    funext t
    exact last_spec tots i.tot mem_tots (by omega) t
  have e1 : compCount (streamArgs i o) = compCount i := by unfold compCount; rw [ec]
  have e2 : flowCount (streamArgs i o) = 1 := by
    unfold flowCount
    rw [ec, et]
    dsimp only
    rw [if_neg, hu]
    rintro ⟨_, hh, _⟩
    simp [streamArgs] at hh
  have e3 : zsOf fl (streamArgs i o) = zsOf fl i := by
    unfold zsOf
    rw [ec, hV, hx]
    rfl
  have e4 : energyStage fl (streamArgs i o) (mwOf fl (zsOf fl i)) = .ok (i.tot .n, o.H, o.H_reactive) := by
    unfold energyStage
    rw [et]
    rfl
  have e5 : ∀ zs MW, nOf fl V (streamArgs i o) zs MW = nOf fl V i zs MW := by
    intro zs MW
    unfold nOf
    rw [ec, et, hQ, hG]
    rfl
  have ex : (streamArgs i o).existing = none := rfl
  have hc0 : compCount i ≠ 0 := by
    rcases h0 with h0 | h0
    · exact h0
    · exact absurd hx h0
  have hno : (i.tot .n).getD (nOf fl V i (zsOf fl i) (mwOf fl (zsOf fl i))) = o.n := by
    cases hx : i.tot .n with
    | some x => exact ((C126_totals fl V i o h hE x).1 hx).symm
    | none =>
      rw [Option.getD_none]
      symm
      rw [hn]
      refine n_eq fl V i r _ _ he _ hx rfl ?_ ?_
      · intro y hy
        unfold nEnergy at hy
        split at hy
        · rename_i m hm
          simp only [Option.some.injEq] at hy
          rw [← hy]
          simp only [nOf, hm]
        · rename_i v hns' hm
          simp only [Option.some.injEq] at hy
          rw [← hy]
          have ht := no_tot i hf hE .ns (by decide) _ hns'
          simp only [nOf, ht, hns']
        · rename_i v hms' hm hns'
          simp only [Option.some.injEq] at hy
          rw [← hy]
          have ht := no_tot i hf hE .ms (by decide) _ hms'
          have hcn := no_comp i hc .ms _ hms'
          simp only [nOf, ht, hms', hcn .ns (by decide)]
        · rename_i v hq hm hns' hms'
          simp only [Option.some.injEq] at hy
          rw [← hy]
          have ht := no_tot i hf hE .Qls (by decide) _ hq
          have hcn := no_comp i hc .Qls _ hq
          simp only [nOf, ht, hq, hcn .ns (by decide), hcn .ms (by decide)]
        · rename_i v hq hm hns' hms' hq1
          simp only [Option.some.injEq] at hy
          rw [← hy]
          have ht := no_tot i hf hE .Qgs (by decide) _ hq
          have hcn := no_comp i hc .Qgs _ hq
          simp only [nOf, ht, hq, hcn .ns (by decide), hcn .ms (by decide), hcn .Qls (by decide), hG, Option.getD_none]
        · rw [hx] at hy; simp at hy
      · intro y hy
        unfold nReactive at hy
        split at hy
        · rename_i m hm
          simp only [Option.some.injEq] at hy
          rw [← hy]
          simp only [nOf, hm]
        · rename_i v hns' hm
          simp only [Option.some.injEq] at hy
          rw [← hy]
          have ht := no_tot i hf hE .ns (by decide) _ hns'
          simp only [nOf, ht, hns']
        · rename_i v hms' hm hns'
          simp only [Option.some.injEq] at hy
          rw [← hy]
          have ht := no_tot i hf hE .ms (by decide) _ hms'
          have hcn := no_comp i hc .ms _ hms'
          simp only [nOf, ht, hms', hcn .ns (by decide)]
        · rw [hx] at hy; simp at hy
  unfold stream
  rw [e1, e2, e3, ex, if_neg (fun hh => hc0 hh.1), if_neg (by omega), if_neg (by simp)]
  dsimp only
  rw [e4]
  simp only [Except.map, e5, Except.ok.injEq, hno, Option.getD_none]
  have eo : o = ⟨o.zs, o.n, o.m, o.ns, o.ws, o.ms, o.H, o.H_reactive⟩ := rfl
  rw [eo]
  congr 1
  · rw [hzs, hx]; rfl
  · exact hm.symm
  · exact hns.symm
  · exact hws.symm
  · rw [hms, hws, hm]

example : ((stream fl2 20 (args .ws ![1 / 4, 3 / 4] [(.Q, 40)])).toOption.map fun o => (o.n, ((stream fl2 20 (streamArgs (args .ws ![1 / 4, 3 / 4] [(.Q, 40)]) o)).toOption.map fun p => p.n))) = some (2, some 2) := by decide +kernel

/-- A flow rate at other conditions is taken to be one at the conditions of the stream by the arguments made from the stream, and by the stream made from arguments (1782-1788), which hand on neither `Q_TP` nor `Vf_TP`. -/
theorem C126_args_fails : ((stream fl2 20 { args .zs ![1 / 4, 3 / 4] [(.Q, 40)] with QTP := some 10 }).toOption.map fun o =>
    (o.n, ((stream fl2 20 (streamArgs { args .zs ![1 / 4, 3 / 4] [(.Q, 40)] with QTP := some 10 } o)).toOption.map fun p => p.n))) = some (4, some 2) := by decide +kernel

/-- `state_specs` of a stream (2936-2948): specifications of the flash listed by name. -/
def stateSpecs (specs : List String) : List String := ["T", "P", "VF", "H", "S", "energy"].filter (· ∈ specs)

/-- All specifications are listed only if none of them is a volume, an internal energy or another energy: of a flash at temperature and volume only the temperature is. -/
theorem C126_state_specs_fails : stateSpecs ["zs", "T", "V"] = ["T"] ∧ stateSpecs ["zs", "P", "U"] = ["P"] ∧ stateSpecs ["zs", "U", "V"] = [] := by decide +kernel

end Verif.Flows
