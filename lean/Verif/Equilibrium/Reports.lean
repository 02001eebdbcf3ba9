import Verif.Equilibrium.State
import Mathlib.Analysis.SpecialFunctions.Log.Basic

/-!
# Composition reports of an equilibrium state (`thermo/equilibrium.py`)

* C72: atom contents, ratios, water-free compositions, volume fractions, the choice of phases.
* C73: ideal-gas entropy and departure functions of a bulk.

A composition is a function `zs`; a phase (or the bulk) is represented by its composition. A Python dictionary is
the list of its items in insertion order. Division by zero is an exception (`none`).
-/

namespace Verif.Equil

/-! ## Model: atoms -/

section Atoms
variable {A : Type} [DecidableEq A]

/-- `if atom in things: things[atom] += v  else: things[atom] = v` (equilibrium.py 805-808) -/
def dictAdd (d : List (A × ℝ)) (a : A) (v : ℝ) : List (A × ℝ) :=
  if a ∈ d.map Prod.fst then d.map fun x => if x.1 = a then (x.1, x.2 + v) else x
  else d ++ [(a, v)]

/-- `atom_content` (equilibrium.py 781-811): the loop over components and their atoms. -/
def atomContent {N : ℕ} (atomss : Fin N → List (A × ℕ)) (zs : Fin N → ℝ) : List (A × ℝ) :=
  (List.finRange N).foldl
    (fun things i => (atomss i).foldl (fun t x => dictAdd t x.1 (zs i * x.2)) things) []

/-- `atom_fractions` (equilibrium.py 813-835) -/
noncomputable def atomFractions {N : ℕ} (atomss : Fin N → List (A × ℕ)) (zs : Fin N → ℝ) : List (A × ℝ) :=
  let things := atomContent atomss zs
  things.map fun x => (x.1, x.2 * (1 / (things.map Prod.snd).sum))

/-- `d.get(a, 0.0)` -/
def dictGet (d : List (A × ℝ)) (a : A) : ℝ := ((d.find? fun x => x.1 = a).map Prod.snd).getD 0

/-- `H_C_ratio(phase)` (equilibrium.py 2174-2195): the argument `phase` is not passed on to `atom_fractions`, which
therefore takes the bulk (826-827). -/
noncomputable def H_C_ratio {N : ℕ} (atomss : Fin N → List (A × ℕ)) (h c : A) (bulk : Fin N → ℝ)
    (_phase : Option (Fin N → ℝ)) : Option ℝ :=
  let f := atomFractions atomss bulk
  if dictGet f c = 0 then none else some (dictGet f h / dictGet f c)

end Atoms

/-! ## Model: water -/

section Water
variable {N : ℕ}

/-- `zs_to_ws` of `chemicals` -/
noncomputable def toWs (MWs zs : Fin N → ℝ) : Fin N → ℝ :=
  fun i => zs i * MWs i * (1 / ∑ j, zs j * MWs j)

/-- `humidity_ratio(phase)` (equilibrium.py 2342-2365): it reads `self.ws()`, the composition of the whole state. -/
noncomputable def humidityRatio (water : Option (Fin N)) (MWs bulk : Fin N → ℝ) (_phase : Option (Fin N → ℝ)) :
    Option ℝ :=
  match water with
  | none => some 0
  | some k =>
    let w := toWs MWs bulk k
    if 1 - w = 0 then none else some (w / (1 - w))

/-- `zs_no_water` (equilibrium.py 2367-2397) and, with the mass fractions, `ws_no_water` (2399-2428). -/
noncomputable def noWater (water : Option (Fin N)) (zs : Fin N → ℝ) : Option (Fin N → ℝ) :=
  match water with
  | none => some zs
  | some k =>
    if 1 - zs k = 0 then none
    else some (Function.update (fun i => zs i * (1 / (1 - zs k))) k 0)

/-- `Vfls` (equilibrium.py 948-973) -/
noncomputable def Vfls (Vls zs : Fin N → ℝ) : Fin N → ℝ := fun i => 1 / (∑ j, zs j * Vls j) * Vls i * zs i

/-- `lightest_liquid` (equilibrium.py 2220-2241): `liquids[rhos.index(min(rhos))]`. -/
noncomputable def lightest {P : Type} (rho : P → ℝ) (liquids : List P) : Option P :=
  match liquids with
  | [] => none
  | [l] => some l
  | l :: ls => let m := (ls.map rho).foldl min (rho l); (l :: ls)[((l :: ls).map rho).idxOf m]?

/-- `heaviest_liquid` (equilibrium.py 2243-2264) -/
noncomputable def heaviest {P : Type} (rho : P → ℝ) (liquids : List P) : Option P :=
  match liquids with
  | [] => none
  | [l] => some l
  | l :: ls => let m := (ls.map rho).foldl max (rho l); (l :: ls)[((l :: ls).map rho).idxOf m]?

/-- The loop of `water_phase_index` (equilibrium.py 2290-2294): `zw` are the water fractions of the liquids from
index `i` on. -/
noncomputable def waterLoop (zw : List ℝ) (i : ℕ) (best : ℝ × Option ℕ) : ℝ × Option ℕ :=
  match zw with
  | [] => best
  | z :: zs => waterLoop zs (i + 1) (if best.1 < z then (z, some i) else best)

/-- `water_phase_index` (equilibrium.py 2267-2297), for a mixture containing water. -/
noncomputable def waterPhaseIndex (zw : List ℝ) : Option ℕ := (waterLoop zw 0 (0, none)).2

end Water

/-! ## Model: ideal gas properties -/

section Ideal
variable {N : ℕ}

/-- `S_ideal_gas` of `Phase` and `Bulk` (bulk.py 1695-1712): the composition and its logarithm are those of the
object. `ints` are the integrals of `Cp/T`, `R log(P/P_ref)` is `RlogP`. -/
noncomputable def S_ig (R RlogP : ℝ) (ints xs : Fin N → ℝ) : ℝ :=
  -(R * ∑ i, xs i * Real.log (xs i)) - RlogP + ∑ i, xs i * ints i

/-- `EquilibriumState.S_ideal_gas(phase)` for a bulk object (equilibrium.py 1732-1748): the composition is that of
the argument, but `log_zs` is `self.log_zs()`, the logarithm of the overall composition. -/
noncomputable def S_ig_state (R RlogP : ℝ) (ints zs xs : Fin N → ℝ) : ℝ :=
  -(R * ∑ i, xs i * Real.log (zs i)) - RlogP + ∑ i, xs i * ints i

/-- `H_ideal_gas` (bulk.py 1675-1683, equilibrium.py 1706-1713) -/
noncomputable def H_ig (ints xs : Fin N → ℝ) : ℝ := ∑ i, xs i * ints i

/-- A phase in a bulk: composition, enthalpy, entropy. -/
structure DPh (N : ℕ) where
  zs : Fin N → ℝ
  H : ℝ
  S : ℝ

/-- `H_dep` of a bulk (equilibrium.py 1489-1505) -/
noncomputable def bulkHdep (intsH zs : Fin N → ℝ) (b : List (ℝ × DPh N)) : ℝ :=
  wsum b (fun p => p.H) - H_ig intsH zs

/-- `S_dep` of a bulk (equilibrium.py 1507-1526); the departure entropy of a phase is `S - S_ideal_gas`. -/
noncomputable def bulkSdep (R RlogP : ℝ) (intsS : Fin N → ℝ) (b : List (ℝ × DPh N)) : ℝ :=
  wsum b fun p => p.S - S_ig R RlogP intsS p.zs

/-- `G_dep` of a bulk, inherited from `Phase` (phase.py 1911-1927). -/
noncomputable def bulkGdep (R RlogP T : ℝ) (intsH intsS zs : Fin N → ℝ) (b : List (ℝ × DPh N)) : ℝ :=
  bulkHdep intsH zs b - T * bulkSdep R RlogP intsS b

/-- The relative entropy of a composition with respect to another one. -/
noncomputable def relEntropy (xs zs : Fin N → ℝ) : ℝ := ∑ i, xs i * (Real.log (xs i) - Real.log (zs i))

end Ideal

/-! ## C72: atoms -/

section Atoms
variable {A : Type} [DecidableEq A]

theorem dictAdd_keys (d : List (A × ℝ)) (a : A) (v : ℝ) (h : (d.map Prod.fst).Nodup) :
    ((dictAdd d a v).map Prod.fst).Nodup ∧
    ∀ k, k ∈ (dictAdd d a v).map Prod.fst ↔ k = a ∨ k ∈ d.map Prod.fst := by
  rw [dictAdd]
  split
  · rename_i ha
    have : (d.map fun x => if x.1 = a then (x.1, x.2 + v) else x).map Prod.fst = d.map Prod.fst := by
      rw [List.map_map]
      refine List.map_congr_left fun x _ => ?_
      simp only [Function.comp]
      split <;> rfl
    rw [this]
    exact ⟨h, fun k => ⟨Or.inr, fun hk => hk.elim (fun e => e ▸ ha) id⟩⟩
  · rename_i ha
    rw [List.map_append]
    constructor
    · refine List.nodup_append.mpr ⟨h, by simp, ?_⟩
      intro x hx y hy
      simp only [List.map_cons, List.map_nil, List.mem_cons, List.not_mem_nil, or_false] at hy
      rintro rfl
      exact ha (hy ▸ hx)
    · intro k
      simp [or_comm]

theorem dictGet_not_mem {d : List (A × ℝ)} {a : A} (h : a ∉ d.map Prod.fst) : dictGet d a = 0 := by
  have : d.find? (fun x => x.1 = a) = none := by
    rw [List.find?_eq_none]
    intro x hx he
    exact h (List.mem_map.mpr ⟨x, hx, by simpa using he⟩)
  simp [dictGet, this]

theorem dictGet_cons (x : A × ℝ) (d : List (A × ℝ)) (a : A) :
    dictGet (x :: d) a = if x.1 = a then x.2 else dictGet d a := by
  by_cases h : x.1 = a <;> simp [dictGet, h]

theorem dictGet_add (d : List (A × ℝ)) (a : A) (v : ℝ) (h : (d.map Prod.fst).Nodup) (k : A) :
    dictGet (dictAdd d a v) k = dictGet d k + if k = a then v else 0 := by
  rw [dictAdd]
  split
  · rename_i ha
    induction d with
    | nil => simp at ha
    | cons x d ih =>
      simp only [List.map_cons, List.nodup_cons] at h
      by_cases hx : x.1 = a
      · have hd : d.map (fun x => if x.1 = a then (x.1, x.2 + v) else x) = d := by
          conv_rhs => rw [← List.map_id d]
          refine List.map_congr_left fun y hy => ?_
          have : y.1 ≠ a := fun e => h.1 (hx ▸ List.mem_map.mpr ⟨y, hy, e⟩)
          simp [this]
        rw [List.map_cons, hd, if_pos hx, dictGet_cons, dictGet_cons]
        by_cases hk : k = a
        · simp [hx, hk]
        · have : x.1 ≠ k := fun e => hk (e ▸ hx)
          simp [this, hk]
      · have ha' : a ∈ d.map Prod.fst := by
          simp only [List.map_cons, List.mem_cons] at ha
          exact ha.resolve_left fun e => hx e.symm
        rw [List.map_cons, if_neg hx, dictGet_cons, dictGet_cons, ih h.2 ha']
        by_cases hk : x.1 = k
        · have : k ≠ a := fun e => hx (hk.trans e)
          simp [hk, this]
        · simp [hk]
  · rename_i ha
    have : ∀ l : List (A × ℝ), a ∉ l.map Prod.fst →
        dictGet (l ++ [(a, v)]) k = dictGet l k + if k = a then v else 0 := by
      intro l hl
      induction l with
      | nil =>
        rw [List.nil_append, dictGet_cons]
        by_cases hk : k = a
        · simp [hk, dictGet]
        · simp [hk, Ne.symm hk, dictGet]
      | cons x l ih =>
        simp only [List.map_cons, List.mem_cons, not_or] at hl
        rw [List.cons_append, dictGet_cons, dictGet_cons, ih hl.2]
        by_cases hk : x.1 = k
        · have : k ≠ a := fun e => hl.1 (hk.trans e).symm
          simp [hk, this]
        · simp [hk]
    exact this d ha

theorem values_add (d : List (A × ℝ)) (a : A) (v : ℝ) (h : (d.map Prod.fst).Nodup) :
    ((dictAdd d a v).map Prod.snd).sum = (d.map Prod.snd).sum + v := by
  rw [dictAdd]
  split
  · rename_i ha
    induction d with
    | nil => simp at ha
    | cons x d ih =>
      simp only [List.map_cons, List.nodup_cons] at h
      by_cases hx : x.1 = a
      · have hd : d.map (fun x => if x.1 = a then (x.1, x.2 + v) else x) = d := by
          conv_rhs => rw [← List.map_id d]
          refine List.map_congr_left fun y hy => ?_
          have : y.1 ≠ a := fun e => h.1 (hx ▸ List.mem_map.mpr ⟨y, hy, e⟩)
          simp [this]
        rw [List.map_cons, hd, if_pos hx]
        simp only [List.map_cons, List.sum_cons]
        ring
      · have ha' : a ∈ d.map Prod.fst := by
          simp only [List.map_cons, List.mem_cons] at ha
          exact ha.resolve_left fun e => hx e.symm
        rw [List.map_cons, if_neg hx]
        simp only [List.map_cons, List.sum_cons]
        rw [ih h.2 ha']
        ring
  · simp

/-- The invariant of the loop over a list of contributions. -/
theorem fold_add (l : List (A × ℝ)) (d : List (A × ℝ)) (h : (d.map Prod.fst).Nodup) :
    ((l.foldl (fun t x => dictAdd t x.1 x.2) d).map Prod.fst).Nodup ∧
    (∀ k, dictGet (l.foldl (fun t x => dictAdd t x.1 x.2) d) k
      = dictGet d k + (l.map fun x => if k = x.1 then x.2 else 0).sum) ∧
    (∀ k, k ∈ (l.foldl (fun t x => dictAdd t x.1 x.2) d).map Prod.fst ↔ k ∈ l.map Prod.fst ∨ k ∈ d.map Prod.fst) ∧
    ((l.foldl (fun t x => dictAdd t x.1 x.2) d).map Prod.snd).sum
      = (d.map Prod.snd).sum + (l.map Prod.snd).sum := by
  induction l generalizing d with
  | nil => simp [h]
  | cons x l ih =>
    have hk := dictAdd_keys d x.1 x.2 h
    obtain ⟨h1, h2, h3, h4⟩ := ih (dictAdd d x.1 x.2) hk.1
    simp only [List.foldl_cons]
    refine ⟨h1, fun k => ?_, fun k => ?_, ?_⟩
    · rw [h2, dictGet_add _ _ _ h, List.map_cons, List.sum_cons]; ring
    · rw [h3, hk.2, List.map_cons, List.mem_cons]; tauto
    · rw [h4, values_add _ _ _ h, List.map_cons, List.sum_cons]; ring

/-- The contributions of all components, in the order of the loops. -/
def contributions {N : ℕ} (atomss : Fin N → List (A × ℕ)) (zs : Fin N → ℝ) : List (A × ℝ) :=
  (List.finRange N).flatMap fun i => (atomss i).map fun x => (x.1, zs i * x.2)

theorem atomContent_eq {N : ℕ} (atomss : Fin N → List (A × ℕ)) (zs : Fin N → ℝ) :
    atomContent atomss zs = (contributions atomss zs).foldl (fun t x => dictAdd t x.1 x.2) [] := by
  rw [atomContent, contributions]
  generalize ([] : List (A × ℝ)) = d
  induction List.finRange N generalizing d with
  | nil => rfl
  | cons i l ih =>
    rw [List.foldl_cons, ih, List.flatMap_cons, List.foldl_append, List.foldl_map]

theorem sum_flatMap {N : ℕ} {α : Type} (f : α → ℝ) (g : Fin N → List α) :
    (((List.finRange N).flatMap g).map f).sum = ∑ i, ((g i).map f).sum := by
  have : ∀ l : List (Fin N), ((l.flatMap g).map f).sum = (l.map fun i => ((g i).map f).sum).sum := by
    intro l
    induction l with
    | nil => rfl
    | cons i l ih => rw [List.flatMap_cons, List.map_append, List.sum_append, ih, List.map_cons, List.sum_cons]
  rw [this, ← List.ofFn_eq_map, List.sum_ofFn]

theorem dictGet_unique {d : List (A × ℕ)} (h : (d.map Prod.fst).Nodup) (z : ℝ) (k : A) :
    (d.map fun x => if k = x.1 then z * x.2 else 0).sum
      = z * (((d.find? fun x => x.1 = k).map Prod.snd).getD 0 : ℕ) := by
  induction d with
  | nil => simp
  | cons x d ih =>
    simp only [List.map_cons, List.nodup_cons, List.sum_cons] at h ⊢
    rw [ih h.2]
    by_cases hx : x.1 = k
    · have : d.find? (fun y => y.1 = k) = none := by
        rw [List.find?_eq_none]
        intro y hy he
        exact h.1 (List.mem_map.mpr ⟨y, hy, by simpa [hx] using he⟩)
      simp [hx, this]
    · simp [hx, Ne.symm hx]

/-- **C72.** The atom content of a composition: every atom occurs once in the dictionary, its value is the sum over
the components of the mole fraction times the number of such atoms in the component, and an atom has an entry if
and only if it occurs in some component. -/
theorem C72_atom_content {N : ℕ} (atomss : Fin N → List (A × ℕ)) (zs : Fin N → ℝ)
    (hd : ∀ i, ((atomss i).map Prod.fst).Nodup) :
    ((atomContent atomss zs).map Prod.fst).Nodup ∧
    (∀ k, dictGet (atomContent atomss zs) k
      = ∑ i, zs i * ((((atomss i).find? fun x => x.1 = k).map Prod.snd).getD 0 : ℕ)) ∧
    (∀ k, k ∈ (atomContent atomss zs).map Prod.fst ↔ ∃ i, k ∈ (atomss i).map Prod.fst) ∧
    ((atomContent atomss zs).map Prod.snd).sum
      = ∑ i, zs i * (((atomss i).map fun x => (x.2 : ℝ)).sum) := by
  rw [atomContent_eq]
  obtain ⟨h1, h2, h3, h4⟩ := fold_add (contributions atomss zs) [] (by simp)
  refine ⟨h1, fun k => ?_, fun k => ?_, ?_⟩
  · rw [h2, contributions, sum_flatMap]
    rw [show dictGet ([] : List (A × ℝ)) k = 0 from rfl, zero_add]
    refine Finset.sum_congr rfl fun i _ => ?_
    rw [List.map_map, ← dictGet_unique (hd i)]
    rfl
  · rw [h3]
    simp only [contributions, List.map_nil, List.not_mem_nil, or_false, List.mem_map, List.mem_flatMap,
      List.mem_finRange, true_and]
    constructor
    · rintro ⟨y, ⟨i, x, hx, rfl⟩, rfl⟩
      exact ⟨i, x, hx, rfl⟩
    · rintro ⟨i, x, hx, rfl⟩
      exact ⟨(x.1, zs i * x.2), ⟨i, x, hx, rfl⟩, rfl⟩
  · rw [h4, contributions, sum_flatMap]
    simp only [List.map_nil, List.sum_nil, zero_add]
    refine Finset.sum_congr rfl fun i _ => ?_
    rw [List.map_map, ← List.sum_map_mul_left]
    rfl

theorem sum_map_scale (l : List (A × ℝ)) (t : ℝ) :
    ((l.map fun x => (x.1, x.2 * t)).map Prod.snd).sum = (l.map Prod.snd).sum * t := by
  induction l with
  | nil => simp
  | cons x l ih => simp only [List.map_cons, List.sum_cons] at ih ⊢; rw [ih]; ring

theorem dictGet_scale (l : List (A × ℝ)) (t : ℝ) (k : A) :
    dictGet (l.map fun x => (x.1, x.2 * t)) k = dictGet l k * t := by
  induction l with
  | nil => simp [dictGet]
  | cons x l ih =>
    rw [List.map_cons, dictGet_cons, dictGet_cons, ih]
    dsimp only
    split <;> rfl

/-- **C72.** The atom fractions sum to one if there is any atom, and are in the proportion of the contents. -/
theorem C72_atom_fractions {N : ℕ} (atomss : Fin N → List (A × ℕ)) (zs : Fin N → ℝ)
    (h : ((atomContent atomss zs).map Prod.snd).sum ≠ 0) :
    ((atomFractions atomss zs).map Prod.snd).sum = 1 ∧
    (∀ k, dictGet (atomFractions atomss zs) k * ((atomContent atomss zs).map Prod.snd).sum
      = dictGet (atomContent atomss zs) k) ∧
    (atomFractions atomss zs).map Prod.fst = (atomContent atomss zs).map Prod.fst := by
  refine ⟨?_, fun k => ?_, ?_⟩
  · rw [atomFractions, sum_map_scale]
    exact mul_one_div_cancel h
  · rw [atomFractions, dictGet_scale, mul_assoc, one_div_mul_cancel h, mul_one]
  · rw [atomFractions, List.map_map]
    rfl

/-- **C72.** Atoms are conserved: the contents of the phases, weighted by the phase fractions, are the content of
the overall composition. -/
theorem C72_atoms_conserved {N : ℕ} (atomss : Fin N → List (A × ℕ)) (hd : ∀ i, ((atomss i).map Prod.fst).Nodup)
    (phases : List (ℝ × (Fin N → ℝ))) (zs : Fin N → ℝ)
    (hz : ∀ i, (phases.map fun p => p.1 * p.2 i).sum = zs i) (k : A) :
    (phases.map fun p => p.1 * dictGet (atomContent atomss p.2) k).sum = dictGet (atomContent atomss zs) k := by
  rw [(C72_atom_content atomss zs hd).2.1]
  simp only [(C72_atom_content atomss _ hd).2.1, ← hz]
  clear hz
  induction phases with
  | nil => simp
  | cons p ps ih =>
    simp only [List.map_cons, List.sum_cons]
    rw [ih, Finset.mul_sum, ← Finset.sum_add_distrib]
    refine Finset.sum_congr rfl fun i _ => ?_
    ring

/-- **C72.** The ratio of two atoms of the whole state is the ratio of their contents; `None` is returned exactly
without the second atom. Missing: the ratio of a phase, which is not what is returned (`C72_H_C_ratio_fails`). -/
theorem C72_H_C_ratio_partial {N : ℕ} (atomss : Fin N → List (A × ℕ)) (h c : A) (bulk : Fin N → ℝ)
    (p : Option (Fin N → ℝ)) (ht : ((atomContent atomss bulk).map Prod.snd).sum ≠ 0) :
    H_C_ratio atomss h c bulk p =
      if dictGet (atomContent atomss bulk) c = 0 then none
      else some (dictGet (atomContent atomss bulk) h / dictGet (atomContent atomss bulk) c) := by
  have hs := (C72_atom_fractions atomss bulk ht).2.1
  have h1 := hs h
  have h2 := hs c
  simp only [H_C_ratio]
  rw [← h1, ← h2]
  simp only [mul_eq_zero, ht, or_false]
  split
  · rfl
  · rw [mul_div_mul_right _ _ ht]

/-- Methane and water. -/
def demoAtoms : Fin 2 → List (String × ℕ)
  | 0 => [("C", 1), ("H", 4)]
  | 1 => [("H", 2), ("O", 1)]

theorem demoAtoms_nodup : ∀ i, ((demoAtoms i).map Prod.fst).Nodup := by decide

theorem demo_get (zs : Fin 2 → ℝ) :
    dictGet (atomContent demoAtoms zs) "C" = zs 0 ∧ dictGet (atomContent demoAtoms zs) "H" = zs 0 * 4 + zs 1 * 2 ∧
    ((atomContent demoAtoms zs).map Prod.snd).sum = zs 0 * 5 + zs 1 * 3 := by
  have h := C72_atom_content demoAtoms zs demoAtoms_nodup
  refine ⟨?_, ?_, ?_⟩
  · rw [h.2.1, Fin.sum_univ_two]; simp [demoAtoms]
  · rw [h.2.1, Fin.sum_univ_two]; simp [demoAtoms]
  · rw [h.2.2.2, Fin.sum_univ_two]; simp [demoAtoms]; norm_num

/-- **C72 (refutation).** `H_C_ratio(phase)` is not the ratio in the phase: the bulk of half methane and half water has
the ratio 6, its phase of pure methane the ratio 4, and the method returns 6 for it. -/
theorem C72_H_C_ratio_fails : ∃ (bulk phase : Fin 2 → ℝ),
    dictGet (atomContent demoAtoms phase) "H" / dictGet (atomContent demoAtoms phase) "C" = 4 ∧
    H_C_ratio demoAtoms "H" "C" bulk (some phase) = some 6 := by
  refine ⟨fun _ => 1 / 2, ![1, 0], ?_, ?_⟩
  · rw [(demo_get _).1, (demo_get _).2.1]; simp
  · have hg := demo_get (fun _ => 1 / 2)
    rw [C72_H_C_ratio_partial _ _ _ _ _ (by rw [hg.2.2]; norm_num), hg.1, hg.2.1, if_neg (by norm_num)]
    norm_num

end Atoms

example : dictGet (atomContent demoAtoms ![1/4, 3/4]) "H" = 5 / 2 := by
  rw [(demo_get _).2.1]; norm_num

example : ((atomFractions demoAtoms ![1/4, 3/4]).map Prod.snd).sum = 1 :=
  (C72_atom_fractions _ _ (by rw [(demo_get _).2.2]; norm_num)).1

example : ([((1/2 : ℝ), (![1, 0] : Fin 2 → ℝ)), (1/2, ![0, 1])].map
    fun p => p.1 * dictGet (atomContent demoAtoms p.2) "H").sum = dictGet (atomContent demoAtoms fun _ => 1/2) "H" :=
  C72_atoms_conserved demoAtoms demoAtoms_nodup _ _ (by intro i; fin_cases i <;> simp) _

/-! ## C72: water -/

section Water
variable {N : ℕ}

/-- **C72.** The water-free composition contains no water, sums to one, keeps the proportions of the others; it exists
unless the composition is pure water, and is the composition itself if water is not a component. -/
theorem C72_no_water {water : Option (Fin N)} {zs out : Fin N → ℝ} (h : noWater water zs = some out)
    (h1 : ∑ i, zs i = 1) :
    ∑ i, out i = 1 ∧ (∀ k, water = some k → out k = 0) ∧
    (∀ i j, some i ≠ water → some j ≠ water → out i * zs j = out j * zs i) ∧
    ((∀ i, 0 ≤ zs i) → ∀ i, 0 ≤ out i) := by
  cases water with
  | none =>
    simp only [noWater, Option.some.injEq] at h
    subst h
    exact ⟨h1, by simp, fun i j _ _ => mul_comm _ _, id⟩
  | some k =>
    simp only [noWater] at h
    split at h
    · simp at h
    rename_i hk
    simp only [Option.some.injEq] at h
    subst h
    refine ⟨?_, ?_, ?_, ?_⟩
    · rw [Finset.sum_update_of_mem (Finset.mem_univ k), zero_add, ← Finset.sum_mul]
      have : ∑ i ∈ Finset.univ \ {k}, zs i = 1 - zs k := by
        rw [← h1, ← Finset.sum_sdiff (Finset.subset_univ {k})]; simp
      rw [this, mul_one_div_cancel hk]
    · rintro j hj
      simp only [Option.some.injEq] at hj
      simp [hj]
    · intro i j hi hj
      have hi' : i ≠ k := fun e => hi (e ▸ rfl)
      have hj' : j ≠ k := fun e => hj (e ▸ rfl)
      simp only [Function.update_of_ne hi', Function.update_of_ne hj']
      ring
    · intro h0 i
      have hle : zs k ≤ 1 := h1 ▸ Finset.single_le_sum (fun i _ => h0 i) (Finset.mem_univ k)
      have : 0 < 1 - zs k := lt_of_le_of_ne (by linarith) (Ne.symm hk)
      by_cases hi : i = k
      · simp [hi]
      · simp only [Function.update_of_ne hi]
        exact mul_nonneg (h0 i) (one_div_pos.mpr this).le

/-- **C72.** The water-free composition fails to exist exactly for pure water. -/
theorem C72_no_water_exists (water : Option (Fin N)) (zs : Fin N → ℝ) :
    noWater water zs = none ↔ ∃ k, water = some k ∧ zs k = 1 := by
  cases water with
  | none => simp [noWater]
  | some k =>
    simp only [noWater, Option.some.injEq, exists_eq_left']
    constructor
    · intro h
      split at h
      · linarith
      · simp at h
    · intro h
      rw [if_pos (by linarith)]

/-- **C72.** Removing water before or after converting to mass fractions is the same. -/
theorem C72_no_water_mass {k : Fin N} {MWs zs out : Fin N → ℝ} (hM : ∀ i, 0 < MWs i) (h0 : ∀ i, 0 ≤ zs i)
    (h1 : ∑ i, zs i = 1) (h : noWater (some k) zs = some out) :
    noWater (some k) (toWs MWs zs) = some (toWs MWs out) := by
  obtain ⟨s1, sk, -, sp⟩ := C72_no_water h h1
  simp only [noWater] at h
  split at h
  · simp at h
  rename_i hk
  simp only [Option.some.injEq] at h
  have hpos : ∀ {x : Fin N → ℝ}, (∀ i, 0 ≤ x i) → ∑ i, x i = 1 → 0 < ∑ i, x i * MWs i := by
    intro x hx hs
    obtain ⟨i, hi⟩ : ∃ i, x i ≠ 0 := by
      by_contra hc
      push Not at hc
      simp [hc] at hs
    exact Finset.sum_pos' (fun i _ => mul_nonneg (hx i) (hM i).le)
      ⟨i, Finset.mem_univ i, mul_pos (lt_of_le_of_ne (hx i) (Ne.symm hi)) (hM i)⟩
  have hz := hpos h0 h1
  have ho := hpos (sp h0) s1
  -- the molar mass of the remainder
  have hso : ∑ i, out i * MWs i = ((∑ i, zs i * MWs i) - zs k * MWs k) * (1 / (1 - zs k)) := by
    have e1 : ∑ i, out i * MWs i = ∑ i ∈ Finset.univ \ {k}, zs i * MWs i * (1 / (1 - zs k)) := by
      rw [← Finset.sum_sdiff (Finset.subset_univ {k}), Finset.sum_singleton, sk k rfl, zero_mul, add_zero]
      refine Finset.sum_congr rfl fun i hi => ?_
      have : i ≠ k := by simpa using hi
      rw [← h, Function.update_of_ne this]
      ring
    rw [e1, ← Finset.sum_mul, ← Finset.sum_sdiff (Finset.subset_univ {k}), Finset.sum_singleton]
    ring
  have hw : 1 - toWs MWs zs k = ((∑ i, zs i * MWs i) - zs k * MWs k) * (1 / ∑ i, zs i * MWs i) := by
    simp only [toWs]
    field_simp
  have hne : (∑ i, zs i * MWs i) - zs k * MWs k ≠ 0 := by
    intro e
    rw [hso, e, zero_mul] at ho
    exact lt_irrefl _ ho
  simp only [noWater]
  rw [hw, if_neg (mul_ne_zero hne (one_div_ne_zero hz.ne'))]
  congr 1
  funext i
  by_cases hi : i = k
  · rw [hi, Function.update_self]
    simp [toWs, sk k rfl]
  · rw [Function.update_of_ne hi]
    simp only [toWs]
    rw [hso, ← h, Function.update_of_ne hi]
    generalize (∑ i, zs i * MWs i) = M at *
    generalize zs k * MWs k = m at *
    field_simp

/-- **C72.** The humidity ratio of the whole state is the mass of water per mass of everything else. Missing: the ratio
of a phase, which is not what is returned (`C72_humidity_fails`). -/
theorem C72_humidity_partial {k : Fin N} {MWs zs : Fin N → ℝ} (p : Option (Fin N → ℝ)) (hM : ∑ i, zs i * MWs i ≠ 0)
    (hd : ∑ i ∈ Finset.univ.erase k, zs i * MWs i ≠ 0) :
    humidityRatio (some k) MWs zs p = some (zs k * MWs k / ∑ i ∈ Finset.univ.erase k, zs i * MWs i) := by
  have hs : zs k * MWs k + ∑ i ∈ Finset.univ.erase k, zs i * MWs i = ∑ i, zs i * MWs i :=
    Finset.add_sum_erase _ (fun i => zs i * MWs i) (Finset.mem_univ k)
  have e : 1 - toWs MWs zs k = (∑ i ∈ Finset.univ.erase k, zs i * MWs i) / ∑ i, zs i * MWs i := by
    simp only [toWs]
    rw [eq_div_iff hM, sub_mul, mul_assoc, one_div_mul_cancel hM, one_mul, mul_one, ← hs]
    ring
  simp only [humidityRatio]
  rw [e, if_neg (div_ne_zero hd hM)]
  simp only [toWs]
  congr 1
  field_simp

theorem C72_no_water_component (MWs zs : Fin N → ℝ) (p : Option (Fin N → ℝ)) :
    humidityRatio none MWs zs p = some 0 ∧ noWater none zs = some zs := ⟨rfl, rfl⟩

/-- **C72 (refutation).** `humidity_ratio(phase)` returns the ratio of the whole state for every phase: with half of
the moles dry gas and half pure water of the same molar mass, the dry phase has the ratio 1. -/
theorem C72_humidity_fails : ∃ (MWs bulk phase : Fin 2 → ℝ), (∀ i, 0 < MWs i) ∧ phase 1 = 0 ∧
    humidityRatio (some 1) MWs bulk (some phase) = some 1 ∧ humidityRatio (some 1) MWs phase none = some 0 := by
  refine ⟨fun _ => 1, fun _ => 1 / 2, ![1, 0], fun _ => one_pos, rfl, ?_, ?_⟩
  · simp [humidityRatio, toWs, Fin.sum_univ_two]; norm_num
  · simp [humidityRatio, toWs, Fin.sum_univ_two]

/-- **C72.** The liquid volume fractions sum to one, and are the fractions of an ideal mixture of the reference
volumes. -/
theorem C72_Vfls {Vls zs : Fin N → ℝ} (h : ∑ i, zs i * Vls i ≠ 0) :
    ∑ i, Vfls Vls zs i = 1 ∧ ∀ i, Vfls Vls zs i * ∑ j, zs j * Vls j = zs i * Vls i := by
  have e : ∀ i, Vfls Vls zs i = zs i * Vls i * (1 / ∑ j, zs j * Vls j) := fun i => by simp only [Vfls]; ring
  constructor
  · simp only [e]
    rw [← Finset.sum_mul, mul_one_div_cancel h]
  · intro i
    rw [e, mul_assoc, one_div_mul_cancel h, mul_one]

/-! ### The choice of phases -/

theorem foldl_min_mem (l : List ℝ) (a : ℝ) :
    l.foldl min a ∈ a :: l ∧ ∀ x ∈ a :: l, l.foldl min a ≤ x := by
  induction l generalizing a with
  | nil => simp
  | cons b l ih =>
    obtain ⟨h1, h2⟩ := ih (min a b)
    simp only [List.foldl_cons]
    constructor
    · rcases List.mem_cons.mp h1 with h | h
      · rw [h]
        rcases min_choice a b with e | e <;> rw [e] <;> simp
      · simp [h]
    · intro x hx
      have hm := h2 (min a b) (by simp)
      simp only [List.mem_cons] at hx
      rcases hx with rfl | rfl | hx
      · exact hm.trans (min_le_left _ _)
      · exact hm.trans (min_le_right _ _)
      · exact h2 x (by simp [hx])

theorem foldl_max_mem (l : List ℝ) (a : ℝ) :
    l.foldl max a ∈ a :: l ∧ ∀ x ∈ a :: l, x ≤ l.foldl max a := by
  induction l generalizing a with
  | nil => simp
  | cons b l ih =>
    obtain ⟨h1, h2⟩ := ih (max a b)
    simp only [List.foldl_cons]
    constructor
    · rcases List.mem_cons.mp h1 with h | h
      · rw [h]
        rcases max_choice a b with e | e <;> rw [e] <;> simp
      · simp [h]
    · intro x hx
      have hm := h2 (max a b) (by simp)
      simp only [List.mem_cons] at hx
      rcases hx with rfl | rfl | hx
      · exact (le_max_left _ _).trans hm
      · exact (le_max_right _ _).trans hm
      · exact h2 x (by simp [hx])

theorem get_idxOf {P : Type} (rho : P → ℝ) (l : List P) (m : ℝ) (h : m ∈ l.map rho) :
    ∃ p, l[(l.map rho).idxOf m]? = some p ∧ p ∈ l ∧ rho p = m := by
  have hlt : (l.map rho).idxOf m < (l.map rho).length := List.idxOf_lt_length_of_mem h
  have hlt' : (l.map rho).idxOf m < l.length := by simpa using hlt
  refine ⟨l[(l.map rho).idxOf m], List.getElem?_eq_getElem hlt', List.getElem_mem _, ?_⟩
  have := List.getElem_idxOf hlt
  rwa [List.getElem_map] at this

/-- **C72.** The lightest (heaviest) liquid is a liquid of the state, no liquid has a smaller (larger) density; there is
one if and only if there is a liquid. -/
theorem C72_lightest_heaviest {P : Type} (rho : P → ℝ) (liquids : List P) :
    (lightest rho liquids = none ↔ liquids = []) ∧ (heaviest rho liquids = none ↔ liquids = []) ∧
    (∀ p, lightest rho liquids = some p → p ∈ liquids ∧ ∀ q ∈ liquids, rho p ≤ rho q) ∧
    (∀ p, heaviest rho liquids = some p → p ∈ liquids ∧ ∀ q ∈ liquids, rho q ≤ rho p) := by
  match liquids with
  | [] => simp [lightest, heaviest]
  | [l] => simp [lightest, heaviest]
  | l :: l' :: ls =>
    have h1 := foldl_min_mem ((l' :: ls).map rho) (rho l)
    have h2 := foldl_max_mem ((l' :: ls).map rho) (rho l)
    rw [← List.map_cons] at h1 h2
    obtain ⟨p, hp, hp1, hp2⟩ := get_idxOf rho (l :: l' :: ls) _ h1.1
    obtain ⟨q, hq, hq1, hq2⟩ := get_idxOf rho (l :: l' :: ls) _ h2.1
    have e1 : lightest rho (l :: l' :: ls) = some p := by simp only [lightest]; exact hp
    have e2 : heaviest rho (l :: l' :: ls) = some q := by simp only [heaviest]; exact hq
    rw [e1, e2]
    refine ⟨by simp, by simp, ?_, ?_⟩
    · rintro _ ⟨⟩
      exact ⟨hp1, fun x hx => hp2 ▸ h1.2 _ (List.mem_map_of_mem hx)⟩
    · rintro _ ⟨⟩
      exact ⟨hq1, fun x hx => hq2 ▸ h2.2 _ (List.mem_map_of_mem hx)⟩

theorem waterLoop_spec (zw : List ℝ) (i : ℕ) (m : ℝ) (b : Option ℕ) :
    let r := waterLoop zw i (m, b)
    m ≤ r.1 ∧ (∀ z ∈ zw, z ≤ r.1) ∧
    (r = (m, b) ∨ ∃ j, ∃ h : j < zw.length, r = (zw[j], some (i + j)) ∧ m < zw[j] ∧ ∀ j' < j, ∀ h', zw[j']'h' < zw[j]) := by
  induction zw generalizing i m b with
  | nil => simp [waterLoop]
  | cons z zs ih =>
    simp only [waterLoop]
    split
    · rename_i hz
      obtain ⟨h1, h2, h3⟩ := ih (i + 1) z (some i)
      refine ⟨hz.le.trans h1, ?_, Or.inr ?_⟩
      · intro x hx
        rcases List.mem_cons.mp hx with rfl | hx
        · exact h1
        · exact h2 x hx
      · rcases h3 with h3 | ⟨j, hj, e, hm, hlt⟩
        · exact ⟨0, by simp, by rw [h3]; simp, by simpa using hz, by simp⟩
        · refine ⟨j + 1, by simpa using hj, ?_, ?_, ?_⟩
          · rw [e]; simp; omega
          · simpa using hz.trans hm
          · intro j' hj' h'
            cases j' with
            | zero => simpa using hm
            | succ n => simpa using hlt n (by omega) (by simpa using h')
    · rename_i hz
      obtain ⟨h1, h2, h3⟩ := ih (i + 1) m b
      refine ⟨h1, ?_, ?_⟩
      · intro x hx
        rcases List.mem_cons.mp hx with rfl | hx
        · exact (not_lt.mp hz).trans h1
        · exact h2 x hx
      · rcases h3 with h3 | ⟨j, hj, e, hm, hlt⟩
        · exact Or.inl h3
        · refine Or.inr ⟨j + 1, by simpa using hj, ?_, ?_, ?_⟩
          · rw [e]; simp; omega
          · simpa using hm
          · intro j' hj' h'
            cases j' with
            | zero => simpa using (not_lt.mp hz).trans_lt hm
            | succ n => simpa using hlt n (by omega) (by simpa using h')

/-- **C72.** The water phase is the first of the liquids with the largest water fraction; there is none exactly if no
liquid contains water. -/
theorem C72_water_phase (zw : List ℝ) :
    (waterPhaseIndex zw = none ↔ ∀ z ∈ zw, z ≤ 0) ∧
    ∀ j, waterPhaseIndex zw = some j → ∃ h : j < zw.length, 0 < zw[j] ∧ (∀ z ∈ zw, z ≤ zw[j]) ∧
      ∀ j' < j, ∀ h', zw[j']'h' < zw[j] := by
  obtain ⟨-, h2, h3⟩ := waterLoop_spec zw 0 0 none
  rw [waterPhaseIndex]
  rcases h3 with h3 | ⟨j, hj, e, hm, hlt⟩
  · rw [h3] at h2 ⊢
    exact ⟨⟨fun _ => h2, fun _ => rfl⟩, by simp⟩
  · rw [e] at h2 ⊢
    simp only [zero_add]
    refine ⟨⟨by simp, fun h => ?_⟩, ?_⟩
    · exact absurd (h _ (List.getElem_mem hj)) (not_le.mpr hm)
    · rintro _ ⟨⟩
      exact ⟨hj, hm, h2, hlt⟩

end Water

example : noWater (some 1) (![1/4, 1/2, 1/4] : Fin 3 → ℝ) = some ![1/2, 0, 1/2] := by
  simp only [noWater]
  norm_num
  funext i; fin_cases i <;> simp [Function.update] <;> norm_num

example : noWater (some 1) (toWs ![18, 2, 10] (![1/4, 1/2, 1/4] : Fin 3 → ℝ)) = some (toWs ![18, 2, 10] ![1/2, 0, 1/2]) :=
  C72_no_water_mass (by intro i; fin_cases i <;> norm_num) (by intro i; fin_cases i <;> norm_num)
    (by rw [Fin.sum_univ_three]; simp; norm_num) (by
      simp only [noWater]
      norm_num
      funext i; fin_cases i <;> simp [Function.update] <;> norm_num)

example : humidityRatio (some 1) ![2, 3] (![1/4, 3/4] : Fin 2 → ℝ) none = some (9/2) := by
  rw [C72_humidity_partial none (by norm_num [Fin.sum_univ_two])]
  all_goals
    rw [show (Finset.univ.erase (1 : Fin 2)) = {0} by decide]
    norm_num

example : ∑ i, Vfls ![1, 2] (![1/2, 1/2] : Fin 2 → ℝ) i = 1 := (C72_Vfls (by norm_num [Fin.sum_univ_two])).1

example : waterPhaseIndex [1/10, 9/10, 1/2] = some 1 := by
  norm_num [waterPhaseIndex, waterLoop]

/-! ## C73: ideal gas and departures of a bulk -/

section Ideal
variable {N : ℕ}

/-- **C73.** The ideal-gas entropy that the state reports for a part of it exceeds the ideal-gas entropy of the part by
exactly the gas constant times the relative entropy of the two compositions; it is never smaller. -/
theorem C73_S_ideal_gas (R RlogP : ℝ) (ints zs xs : Fin N → ℝ) :
    S_ig_state R RlogP ints zs xs - S_ig R RlogP ints xs = R * relEntropy xs zs := by
  simp only [S_ig_state, S_ig, relEntropy]
  have : ∑ i, xs i * (Real.log (xs i) - Real.log (zs i))
      = (∑ i, xs i * Real.log (xs i)) - ∑ i, xs i * Real.log (zs i) := by
    rw [← Finset.sum_sub_distrib]
    exact Finset.sum_congr rfl fun i _ => by ring
  rw [this]
  ring

/-- The relative entropy is not negative (Gibbs). -/
theorem relEntropy_nonneg {xs zs : Fin N → ℝ} (hx : ∀ i, 0 < xs i) (hz : ∀ i, 0 < zs i) (hx1 : ∑ i, xs i = 1)
    (hz1 : ∑ i, zs i = 1) : 0 ≤ relEntropy xs zs ∧ (relEntropy xs zs = 0 ↔ xs = zs) := by
  have key : ∀ i, xs i - zs i ≤ xs i * (Real.log (xs i) - Real.log (zs i)) := by
    intro i
    have := Real.log_le_sub_one_of_pos (div_pos (hz i) (hx i))
    rw [Real.log_div (hz i).ne' (hx i).ne'] at this
    have h2 := mul_le_mul_of_nonneg_left this (hx i).le
    have h3 : xs i * (zs i / xs i - 1) = zs i - xs i := by have := (hx i).ne'; field_simp
    rw [h3] at h2
    linarith
  have hsum : ∑ i, (xs i - zs i) = 0 := by rw [Finset.sum_sub_distrib, hx1, hz1, sub_self]
  constructor
  · rw [← hsum]
    exact Finset.sum_le_sum fun i _ => key i
  · constructor
    · intro h
      have h0 : ∑ i, (xs i * (Real.log (xs i) - Real.log (zs i)) - (xs i - zs i)) = 0 := by
        rw [Finset.sum_sub_distrib, hsum, sub_zero]; exact h
      rw [Finset.sum_eq_zero_iff_of_nonneg (fun i _ => by linarith [key i])] at h0
      funext i
      by_contra hne
      have hr : zs i / xs i ≠ 1 := fun e => hne ((div_eq_one_iff_eq (hx i).ne').mp e).symm
      have := Real.log_lt_sub_one_of_pos (div_pos (hz i) (hx i)) hr
      rw [Real.log_div (hz i).ne' (hx i).ne'] at this
      have h2 := mul_lt_mul_of_pos_left this (hx i)
      have h3 : xs i * (zs i / xs i - 1) = zs i - xs i := by have := (hx i).ne'; field_simp
      rw [h3] at h2
      have := h0 i (Finset.mem_univ i)
      linarith
    · rintro rfl
      simp [relEntropy]

/-- **C73.** The error of the reported ideal-gas entropy of a part is never negative, and vanishes only if the part has
the overall composition. -/
theorem C73_S_ideal_gas_sign {R : ℝ} (hR : 0 < R) (RlogP : ℝ) (ints : Fin N → ℝ) {zs xs : Fin N → ℝ}
    (hx : ∀ i, 0 < xs i) (hz : ∀ i, 0 < zs i) (hx1 : ∑ i, xs i = 1) (hz1 : ∑ i, zs i = 1) :
    S_ig R RlogP ints xs ≤ S_ig_state R RlogP ints zs xs ∧
    (S_ig_state R RlogP ints zs xs = S_ig R RlogP ints xs ↔ xs = zs) := by
  have h := C73_S_ideal_gas R RlogP ints zs xs
  obtain ⟨h0, h1⟩ := relEntropy_nonneg hx hz hx1 hz1
  constructor
  · have := mul_nonneg hR.le h0
    linarith
  · rw [← h1]
    constructor
    · intro e
      rw [e, sub_self] at h
      exact (mul_eq_zero.mp h.symm).resolve_left hR.ne'
    · intro e
      rw [e, mul_zero] at h
      linarith

theorem wsum_lin {α : Type} (b : List (ℝ × α)) (x : α → Fin N → ℝ) (c : Fin N → ℝ) :
    wsum b (fun p => ∑ i, x p i * c i) = ∑ i, wsum b (fun p => x p i) * c i := by
  induction b with
  | nil => simp [wsum]
  | cons y b ih =>
    simp only [wsum, List.map_cons, List.sum_cons] at ih ⊢
    rw [ih, Finset.mul_sum, ← Finset.sum_add_distrib]
    exact Finset.sum_congr rfl fun i _ => by ring

theorem wsum_const {α : Type} (b : List (ℝ × α)) (c : ℝ) : wsum b (fun _ => c) = (b.map Prod.fst).sum * c := by
  induction b with
  | nil => simp [wsum]
  | cons y b ih => simp only [wsum, List.map_cons, List.sum_cons] at ih ⊢; rw [ih]; ring

/-- **C73.** The enthalpy departure of a bulk is both the difference of its enthalpy and its ideal-gas enthalpy, and the
weighted sum of the departures of the phases. -/
theorem C73_H_dep {intsH zs : Fin N → ℝ} {b : List (ℝ × DPh N)} (hz : ∀ i, wsum b (fun p => p.zs i) = zs i) :
    bulkHdep intsH zs b = wsum b (fun p => p.H) - ∑ i, zs i * intsH i ∧
    bulkHdep intsH zs b = wsum b (fun p => p.H - ∑ i, p.zs i * intsH i) := by
  refine ⟨rfl, ?_⟩
  rw [wsum_sub, wsum_lin b (fun p => p.zs) intsH]
  simp only [bulkHdep, H_ig, hz]

/-- **C73.** The entropy departure of a bulk is *not* the difference of its entropy and the entropy of the ideal gas of
the overall composition: it exceeds the difference by the gas constant times the mean relative entropy of the phase
compositions. -/
theorem C73_S_dep {R RlogP : ℝ} {intsS zs : Fin N → ℝ} {b : List (ℝ × DPh N)}
    (hb : (b.map Prod.fst).sum = 1) (hz : ∀ i, wsum b (fun p => p.zs i) = zs i) :
    bulkSdep R RlogP intsS b
      = wsum b (fun p => p.S) - S_ig R RlogP intsS zs + R * wsum b (fun p => relEntropy p.zs zs) := by
  have h1 : ∀ p : DPh N, p.S - S_ig R RlogP intsS p.zs
      = (p.S - (S_ig_state R RlogP intsS zs p.zs)) - (-R) * relEntropy p.zs zs := by
    intro p
    have := C73_S_ideal_gas R RlogP intsS zs p.zs
    linarith
  have h2 : wsum b (fun p => S_ig_state R RlogP intsS zs p.zs) = S_ig R RlogP intsS zs := by
    have e : ∀ p : DPh N, S_ig_state R RlogP intsS zs p.zs
        = (∑ i, p.zs i * (intsS i - R * Real.log (zs i))) - RlogP := by
      intro p
      simp only [S_ig_state, mul_sub, Finset.sum_sub_distrib, Finset.mul_sum]
      have : ∑ i, p.zs i * (R * Real.log (zs i)) = ∑ i, R * (p.zs i * Real.log (zs i)) :=
        Finset.sum_congr rfl fun i _ => by ring
      rw [this]
      ring
    simp only [e]
    rw [wsum_sub, wsum_lin b (fun p => p.zs), wsum_const, hb]
    simp only [hz, S_ig, mul_sub, Finset.sum_sub_distrib, Finset.mul_sum]
    have : ∑ i, zs i * (R * Real.log (zs i)) = ∑ i, R * (zs i * Real.log (zs i)) :=
      Finset.sum_congr rfl fun i _ => by ring
    rw [this]
    ring
  simp only [bulkSdep, h1]
  rw [wsum_sub, wsum_sub, h2]
  have h3 : wsum b (fun p => -R * relEntropy p.zs zs) = -R * wsum b (fun p => relEntropy p.zs zs) := by
    simp only [wsum]
    rw [← List.sum_map_mul_left]
    congr 1
    exact List.map_congr_left fun x _ => by ring
  rw [h3]
  ring

/-- **C73.** The entropy departure is the difference if all phases have the overall composition (in particular for one
phase), and then `G_dep` is `G - G_ideal_gas`. -/
theorem C73_dep_partial {R RlogP T : ℝ} {intsH intsS zs : Fin N → ℝ} {b : List (ℝ × DPh N)}
    (hb : (b.map Prod.fst).sum = 1) (hz : ∀ x ∈ b, x.2.zs = zs) :
    bulkSdep R RlogP intsS b = wsum b (fun p => p.S) - S_ig R RlogP intsS zs ∧
    bulkGdep R RlogP T intsH intsS zs b
      = (wsum b (fun p => p.H) - T * wsum b (fun p => p.S)) - (H_ig intsH zs - T * S_ig R RlogP intsS zs) := by
  have e : ∀ (f : DPh N → ℝ) (c : ℝ), (∀ x ∈ b, f x.2 = c) → wsum b f = c := by
    intro f c hc
    have : wsum b f = wsum b (fun _ => c) := by
      simp only [wsum]
      congr 1
      exact List.map_congr_left fun x hx => by rw [hc x hx]
    rw [this, wsum_const, hb, one_mul]
  have h1 : bulkSdep R RlogP intsS b = wsum b (fun p => p.S) - S_ig R RlogP intsS zs := by
    rw [C73_S_dep hb (zs := zs) (fun i => e _ _ fun x hx => by rw [hz x hx]),
      e (fun p => relEntropy p.zs zs) 0 (fun x hx => by rw [hz x hx]; simp [relEntropy])]
    ring
  refine ⟨h1, ?_⟩
  rw [bulkGdep, h1, bulkHdep]
  ring

/-- **C73 (refutation).** In general `G_dep` of a bulk is strictly smaller than `G - G_ideal_gas`, by `R T` times the
mean relative entropy: whenever the phases have positive fractions and not all the overall composition. -/
theorem C73_G_dep_fails {R RlogP T : ℝ} {intsH intsS zs : Fin N → ℝ} {b : List (ℝ × DPh N)}
    (hR : 0 < R) (hT : 0 < T) (hb : (b.map Prod.fst).sum = 1) (hz : ∀ i, wsum b (fun p => p.zs i) = zs i)
    (hz0 : ∀ i, 0 < zs i) (hz1 : ∑ i, zs i = 1)
    (hx : ∀ x ∈ b, 0 < x.1 ∧ (∀ i, 0 < x.2.zs i) ∧ ∑ i, x.2.zs i = 1) (hne : ∃ x ∈ b, x.2.zs ≠ zs) :
    bulkGdep R RlogP T intsH intsS zs b
      < (wsum b (fun p => p.H) - T * wsum b (fun p => p.S)) - (H_ig intsH zs - T * S_ig R RlogP intsS zs) := by
  have hpos : 0 < wsum b (fun p => relEntropy p.zs zs) := by
    obtain ⟨y, hy, hyne⟩ := hne
    have h0 : ∀ v ∈ b.map (fun x => x.1 * relEntropy x.2.zs zs), 0 ≤ v := by
      intro v hv
      obtain ⟨x, hxb, rfl⟩ := List.mem_map.mp hv
      exact mul_nonneg (hx x hxb).1.le (relEntropy_nonneg (hx x hxb).2.1 hz0 (hx x hxb).2.2 hz1).1
    have hy0 : 0 < y.1 * relEntropy y.2.zs zs := by
      obtain ⟨h1, h2⟩ := relEntropy_nonneg (hx y hy).2.1 hz0 (hx y hy).2.2 hz1
      exact mul_pos (hx y hy).1 (lt_of_le_of_ne h1 fun e => hyne (h2.mp e.symm))
    exact lt_of_lt_of_le hy0 (List.single_le_sum h0 _ (List.mem_map.mpr ⟨y, hy, rfl⟩))
  rw [bulkGdep, C73_S_dep hb hz, bulkHdep]
  have := mul_pos hT (mul_pos hR hpos)
  linarith

end Ideal

/-- Two phases of mirrored composition. -/
noncomputable def demoDep : List (ℝ × DPh 2) := [(1/2, ⟨![1/3, 2/3], 1, 2⟩), (1/2, ⟨![2/3, 1/3], 3, 4⟩)]

theorem demoDep_z : ∀ i, wsum demoDep (fun p => p.zs i) = 1/2 := by
  intro i
  fin_cases i <;> simp [wsum, demoDep] <;> norm_num

example : bulkGdep 8 0 300 (fun _ => 5) (fun _ => 1) (fun _ => 1/2) demoDep
    < (2 - 300 * 3) - (H_ig (fun _ => 5) (fun _ : Fin 2 => 1/2) - 300 * S_ig 8 0 (fun _ => 1) (fun _ : Fin 2 => 1/2)) := by
  have h := C73_G_dep_fails (R := 8) (RlogP := 0) (T := 300) (intsH := fun _ => 5) (intsS := fun _ => 1)
    (zs := fun _ => 1/2) (b := demoDep) (by norm_num) (by norm_num) (by norm_num [demoDep]) demoDep_z
    (fun _ => by norm_num) (by norm_num [Fin.sum_univ_two]) (by
      intro x hx
      simp only [demoDep, List.mem_cons, List.not_mem_nil, or_false] at hx
      rcases hx with rfl | rfl
      · exact ⟨by norm_num, fun i => by fin_cases i <;> norm_num, by norm_num [Fin.sum_univ_two]⟩
      · exact ⟨by norm_num, fun i => by fin_cases i <;> norm_num, by norm_num [Fin.sum_univ_two]⟩)
    ⟨_, List.mem_cons_self, fun e => by have := congrFun e 0; norm_num at this⟩
  have e1 : wsum demoDep (fun p => p.H) = 2 := by norm_num [wsum, demoDep]
  have e2 : wsum demoDep (fun p => p.S) = 3 := by norm_num [wsum, demoDep]
  rw [e1, e2] at h
  exact h

example : S_ig 8 0 (fun _ => 1) ![1/3, 2/3] ≤ S_ig_state 8 0 (fun _ => 1) (fun _ : Fin 2 => 1/2) ![1/3, 2/3] :=
  (C73_S_ideal_gas_sign (by norm_num) _ _ (fun i => by fin_cases i <;> norm_num) (fun _ => by norm_num)
    (by norm_num [Fin.sum_univ_two]) (by norm_num [Fin.sum_univ_two])).1

example : bulkHdep (fun _ => 5) (fun _ : Fin 2 => 1/2) demoDep = wsum demoDep (fun p => p.H - ∑ i, p.zs i * 5) :=
  (C73_H_dep demoDep_z).2

example : bulkSdep 8 0 (fun _ => 1) [(1, (⟨fun _ => 1/2, 1, 7⟩ : DPh 2))]
    = 7 - S_ig 8 0 (fun _ => 1) (fun _ : Fin 2 => 1/2) := by
  have := (C73_dep_partial (R := 8) (RlogP := 0) (T := 1) (intsH := fun _ => 0) (intsS := fun _ => 1)
    (zs := fun _ : Fin 2 => 1/2) (b := [(1, (⟨fun _ => 1/2, 1, 7⟩ : DPh 2))]) (by simp) (by simp)).1
  rw [this]
  simp [wsum]

end Verif.Equil
