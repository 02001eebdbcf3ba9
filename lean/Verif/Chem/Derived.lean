import Mathlib.Data.Rat.Defs
import Mathlib.Tactic

/-!
# Derived constants of `Chemical` and where data come from (`thermo/chemical.py`, `thermo/database.py`)

* C142: formation, combustion and Gibbs energies derived while a `Chemical` is made (chemical.py 1060-1156, 1255-1309), critical constants (974-976), densities and entropies of transition
  (1172-1221), the triple point (1053-1055, 1190), databases of the user (175-254), the compiled database (database.py 37-143) and the averages of `Mixture` (mixture.py 782-883, 2500-2514).

Simplified: numbers are rational. `HHV_stoichiometry` of `chemicals` is an arbitrary partial function of the enthalpy of formation, `S0_basis_converter` (modelled in `Verif.Formation`) a partial function
of the entropy of the gas, a property object a partial function of temperature. `property_molar_to_mass(x, MW)` is `x*1000/MW`, `None` for `None`; `Vm_to_rho(V, MW)` is `MW/1000/V`;
`LHV_from_HHV(HHV, n)` is `HHV + 44011.496*n`.
-/

namespace Verif.Derived

/-! ## Formation and combustion -/

/-- Phase at 298.15 K and 101325 Pa; `none` where `identify_phase` gives `None`. -/
inductive Ph | s | l | g
deriving DecidableEq

/-- An element of the periodic table: enthalpy and entropy of what it forms at standard conditions, and whether that is a molecule of two atoms (`homonuclear_elements`). -/
structure Elem where
  (Hf S0 : ℚ)
  two : Bool

/-- What is known of a compound. `hhv` is `HHV_stoichiometry` with the reaction of the compound, `none` where it raises or gives `None`; `water` the moles of water of the reaction;
`conv` the entropy of the liquid from that of the gas. `table` is the periodic table, without `D` and `T`. -/
structure Data where
  MW : ℚ
  phase : Option Ph
  (hfs hfl hfg s0g hvap298 : Option ℚ)
  hhv : ℚ → Option ℚ
  water : ℚ
  conv : ℚ → Option ℚ
  atoms : List (String × ℚ)
  table : String → Option Elem

/-- The attributes. `Hfmg` is the name written in 1272. -/
structure Rec where
  (Hfm Hf Hcm Hc HcmL HcL Hfgm Hfg Hfmg S0gm S0g S0m S0 Gfgm Gfg Sfgm Sfg Hcgm Hcg HcgmL HcgL Gfm Gf Sfm Sf : Option ℚ)

/-- `property_molar_to_mass(x, MW) if x is not None else None`. -/
def mass (d : Data) (x : Option ℚ) : Option ℚ := x.map fun a => a * 1000 / d.MW

/-- Lines 1124-1134: enthalpy and entropy of an atom of the element. -/
def elemental (d : Data) (a : String) : Option (ℚ × ℚ) :=
  (d.table a).map fun e => if e.two then ((1/2) * e.Hf, (1/2) * e.S0) else (e.Hf, e.S0)

/-- The sums over the elements in `Gibbs_formation`; `none` if one is not known. -/
def sums (d : Data) : List (String × ℚ) → Option (ℚ × ℚ)
  | [] => some (0, 0)
  | (a, n) :: t => do
    let e ← elemental d a
    let s ← sums d t
    return (n * e.1 + s.1, n * e.2 + s.2)

/-- `Gibbs_formation(H, S, dHfs_std, S0_abs_elements, coeffs_elements)`; `none` where it raises. -/
def gibbs (d : Data) (H S : Option ℚ) : Option ℚ := do
  let h ← H
  let s ← S
  let e ← sums d d.atoms
  return (h - e.1) - 298.15 * (s - e.2)

/-- `(H - G)/298.15` (1146, 1308). -/
def entropy (H G : Option ℚ) : Option ℚ := do
  let h ← H
  let g ← G
  return (h - g) / 298.15

/-- Lines 1060-1078. -/
def found (d : Data) : Option ℚ :=
  match d.phase with
  | some .g => d.hfg
  | some .l => d.hfl
  | some .s => d.hfs
  | none => none

/-- Lines 1089, 1155. -/
def lower (d : Data) (h : Option ℚ) : Option ℚ := h.map fun x => x + 44011.496 * d.water

/-- Lines 1060-1156. -/
def first (d : Data) : Rec :=
  let Hcm := (found d).bind d.hhv
  let Gfgm := gibbs d d.hfg d.s0g
  let Sfgm := entropy d.hfg Gfgm
  let Hcgm := d.hfg.bind d.hhv
  { Hfm := found d, Hf := mass d (found d), Hcm := Hcm, Hc := mass d Hcm, HcmL := lower d Hcm, HcL := mass d (lower d Hcm)
    Hfgm := d.hfg, Hfg := mass d d.hfg, Hfmg := none, S0gm := d.s0g, S0g := mass d d.s0g, S0m := none, S0 := none
    Gfgm := Gfgm, Gfg := mass d Gfgm, Sfgm := Sfgm, Sfg := mass d Sfgm
    Hcgm := Hcgm, Hcg := mass d Hcgm, HcgmL := lower d Hcgm, HcgL := mass d (lower d Hcgm)
    Gfm := none, Gf := none, Sfm := none, Sf := none }

/-- `if Hfm is not None: self.Hfm = Hfm; self.Hf = ...` (1262-1264). -/
def storeH (d : Data) (r : Rec) : Option ℚ → Rec
  | some h => { r with Hfm := some h, Hf := mass d (some h) }
  | none => r

/-- Lines 1271-1273. -/
def storeHg (d : Data) (r : Rec) : Option ℚ → Rec
  | some h => { r with Hfmg := some h, Hfg := mass d (some h) }
  | none => r

/-- Lines 1255-1275; `Hf_basis_converter` subtracts or adds the enthalpy of vaporization. -/
def adjustH (d : Data) (r : Rec) : Rec :=
  if r.Hfgm.isSome ∧ r.Hfm = none then
    storeH d r (if d.phase = some .l ∧ d.hvap298.isSome then (do return (← r.Hfgm) - (← d.hvap298)) else if d.phase = some .g then r.Hfgm else none)
  else if r.Hfm.isSome ∧ r.Hfgm = none then
    storeHg d r (if d.phase = some .l ∧ d.hvap298.isSome then (do return (← r.Hfm) + (← d.hvap298)) else if d.phase = some .g then r.Hfm else none)
  else r

/-- Lines 1285-1287. -/
def storeS (d : Data) (r : Rec) : Option ℚ → Rec
  | some s => { r with S0m := some s, S0 := mass d (some s) }
  | none => r

/-- Lines 1277-1287; the branch of 1288-1296 needs an entropy of the liquid, which is never known here (1116). -/
def adjustS (d : Data) (r : Rec) : Rec :=
  if r.S0gm.isSome ∧ r.S0m = none then
    storeS d r (if d.phase = some .l then r.S0gm.bind d.conv else if d.phase = some .g then r.S0gm else none)
  else r

/-- Lines 1302-1309. -/
def finish (d : Data) (r : Rec) : Rec :=
  let G := gibbs d r.Hfm r.S0m
  let S := entropy r.Hfm G
  { r with Gfm := G, Gf := mass d G, Sfm := S, Sf := mass d S }

/-- `set_TP_sources`, energies only. -/
def make (d : Data) : Rec := finish d (adjustS d (adjustH d (first d)))

/-! ### Specification -/

/-- A value per kilogram belongs to a value per mole. -/
def Per (MW : ℚ) (molar massic : Option ℚ) : Prop := (molar = none ∧ massic = none) ∨ ∃ x, molar = some x ∧ massic = some (x * 1000 / MW)

theorem per_mass (d : Data) (x : Option ℚ) : Per d.MW x (mass d x) := by
  rcases x with _ | x
  · exact .inl ⟨rfl, rfl⟩
  · exact .inr ⟨x, rfl, rfl⟩

theorem storeH_gas (d : Data) (r : Rec) (o : Option ℚ) : (storeH d r o).Hfgm = r.Hfgm ∧ (storeH d r o).S0gm = r.S0gm ∧ (storeH d r o).S0m = r.S0m := by
  rcases o with _ | o <;> exact ⟨rfl, rfl, rfl⟩

theorem storeHg_gas (d : Data) (r : Rec) (o : Option ℚ) : (storeHg d r o).Hfgm = r.Hfgm ∧ (storeHg d r o).S0gm = r.S0gm ∧ (storeHg d r o).S0m = r.S0m ∧ (storeHg d r o).Hfm = r.Hfm := by
  rcases o with _ | o <;> exact ⟨rfl, rfl, rfl, rfl⟩

/-- What the three last steps leave alone. -/
theorem make_kept (d : Data) : (make d).Hcm = (found d).bind d.hhv ∧ (make d).HcmL = lower d ((found d).bind d.hhv) ∧ (make d).Hc = mass d ((found d).bind d.hhv)
    ∧ (make d).HcL = mass d (lower d ((found d).bind d.hhv)) ∧ (make d).Hfgm = d.hfg ∧ (make d).S0gm = d.s0g ∧ (make d).S0g = mass d d.s0g
    ∧ (make d).Gfgm = gibbs d d.hfg d.s0g ∧ (make d).Gfg = mass d (gibbs d d.hfg d.s0g) ∧ (make d).Sfgm = entropy d.hfg (gibbs d d.hfg d.s0g)
    ∧ (make d).Sfg = mass d (entropy d.hfg (gibbs d d.hfg d.s0g)) ∧ (make d).Hcgm = d.hfg.bind d.hhv ∧ (make d).Hcg = mass d (d.hfg.bind d.hhv)
    ∧ (make d).HcgmL = lower d (d.hfg.bind d.hhv) ∧ (make d).HcgL = mass d (lower d (d.hfg.bind d.hhv)) := by
  have hH : ∀ (r : Rec) (o : Option ℚ), (storeH d r o).Hcm = r.Hcm ∧ (storeH d r o).HcmL = r.HcmL ∧ (storeH d r o).Hc = r.Hc ∧ (storeH d r o).HcL = r.HcL
      ∧ (storeH d r o).Hfgm = r.Hfgm ∧ (storeH d r o).S0gm = r.S0gm ∧ (storeH d r o).S0g = r.S0g ∧ (storeH d r o).Gfgm = r.Gfgm ∧ (storeH d r o).Gfg = r.Gfg
      ∧ (storeH d r o).Sfgm = r.Sfgm ∧ (storeH d r o).Sfg = r.Sfg ∧ (storeH d r o).Hcgm = r.Hcgm ∧ (storeH d r o).Hcg = r.Hcg ∧ (storeH d r o).HcgmL = r.HcgmL
      ∧ (storeH d r o).HcgL = r.HcgL := by
    intro r o; rcases o with _ | o <;> simp [storeH]
  have hG : ∀ (r : Rec) (o : Option ℚ), (storeHg d r o).Hcm = r.Hcm ∧ (storeHg d r o).HcmL = r.HcmL ∧ (storeHg d r o).Hc = r.Hc ∧ (storeHg d r o).HcL = r.HcL
      ∧ (storeHg d r o).Hfgm = r.Hfgm ∧ (storeHg d r o).S0gm = r.S0gm ∧ (storeHg d r o).S0g = r.S0g ∧ (storeHg d r o).Gfgm = r.Gfgm ∧ (storeHg d r o).Gfg = r.Gfg
      ∧ (storeHg d r o).Sfgm = r.Sfgm ∧ (storeHg d r o).Sfg = r.Sfg ∧ (storeHg d r o).Hcgm = r.Hcgm ∧ (storeHg d r o).Hcg = r.Hcg ∧ (storeHg d r o).HcgmL = r.HcgmL
      ∧ (storeHg d r o).HcgL = r.HcgL := by
    intro r o; rcases o with _ | o <;> simp [storeHg]
  have hS : ∀ (r : Rec) (o : Option ℚ), (storeS d r o).Hcm = r.Hcm ∧ (storeS d r o).HcmL = r.HcmL ∧ (storeS d r o).Hc = r.Hc ∧ (storeS d r o).HcL = r.HcL
      ∧ (storeS d r o).Hfgm = r.Hfgm ∧ (storeS d r o).S0gm = r.S0gm ∧ (storeS d r o).S0g = r.S0g ∧ (storeS d r o).Gfgm = r.Gfgm ∧ (storeS d r o).Gfg = r.Gfg
      ∧ (storeS d r o).Sfgm = r.Sfgm ∧ (storeS d r o).Sfg = r.Sfg ∧ (storeS d r o).Hcgm = r.Hcgm ∧ (storeS d r o).Hcg = r.Hcg ∧ (storeS d r o).HcgmL = r.HcgmL
      ∧ (storeS d r o).HcgL = r.HcgL := by
    intro r o; rcases o with _ | o <;> simp [storeS]
  unfold make finish adjustS adjustH
  split_ifs <;> simp only [hH, hG, hS] <;> simp [first]

/-- The enthalpy of formation after the steps. -/
theorem make_Hfm (d : Data) : (make d).Hfm = match found d, d.hfg with
    | some f, _ => some f
    | none, some g => if d.phase = some .l ∧ d.hvap298.isSome then d.hvap298.map (g - ·) else if d.phase = some .g then some g else none
    | none, none => none := by
  have hS : ∀ (r : Rec), (adjustS d r).Hfm = r.Hfm := by
    intro r
    unfold adjustS
    have : ∀ o, (storeS d r o).Hfm = r.Hfm := by intro o; rcases o with _ | o <;> rfl
    split_ifs <;> simp [this]
  have h0 : (make d).Hfm = (adjustH d (first d)).Hfm := by unfold make finish; exact hS _
  rw [h0, adjustH]
  have e1 : (first d).Hfm = found d := rfl
  have e2 : (first d).Hfgm = d.hfg := rfl
  rw [e1, e2]
  rcases hf : found d with _ | f <;> rcases hg : d.hfg with _ | g
  · simp [e1, hf]
  · simp only [Option.isSome_some, and_self, if_true]
    by_cases hl : d.phase = some .l ∧ d.hvap298.isSome
    · rw [if_pos hl, if_pos hl]
      obtain ⟨v, hv⟩ := Option.isSome_iff_exists.mp hl.2
      rw [hv]; rfl
    · rw [if_neg hl, if_neg hl]
      by_cases hp : d.phase = some .g
      · rw [if_pos hp]; rfl
      · rw [if_neg hp]; exact hf
  · simp only [Option.isSome_none, Bool.false_eq_true, false_and, if_false, Option.isSome_some, and_self, if_true, (storeHg_gas d (first d) _).2.2.2, e1, hf]
  · simp [e1, hf]

/-- The entropy after the steps. -/
theorem make_S0m (d : Data) : (make d).S0m = if d.phase = some .l then d.s0g.bind d.conv else if d.phase = some .g then d.s0g else none := by
  have h0 : (make d).S0m = (adjustS d (adjustH d (first d))).S0m := rfl
  have e : (adjustH d (first d)).S0gm = d.s0g ∧ (adjustH d (first d)).S0m = none := by
    unfold adjustH
    split_ifs <;> first | exact ⟨(storeH_gas d (first d) _).2.1, (storeH_gas d (first d) _).2.2⟩ | exact ⟨(storeHg_gas d (first d) _).2.1, (storeHg_gas d (first d) _).2.2.1⟩ | exact ⟨rfl, rfl⟩
  rw [h0, adjustS, e.1, e.2]
  have hS : ∀ (r : Rec) (o : Option ℚ), r.S0m = none → (storeS d r o).S0m = o := by
    intro r o hr; rcases o with _ | o
    · exact hr
    · rfl
  rcases hs : d.s0g with _ | s
  · simp [e.2]
  · simp only [Option.isSome_some, and_self, if_true]
    rw [hS _ _ e.2]

/-- **C142.** Values per kilogram are the values per mole divided by the molar mass, except the enthalpy of formation of the gas (`C142_mass_fails`). -/
theorem C142_mass (d : Data) : Per d.MW (make d).Hfm (make d).Hf ∧ Per d.MW (make d).Hcm (make d).Hc ∧ Per d.MW (make d).HcmL (make d).HcL
    ∧ Per d.MW (make d).Hcgm (make d).Hcg ∧ Per d.MW (make d).HcgmL (make d).HcgL ∧ Per d.MW (make d).S0gm (make d).S0g ∧ Per d.MW (make d).S0m (make d).S0
    ∧ Per d.MW (make d).Gfgm (make d).Gfg ∧ Per d.MW (make d).Sfgm (make d).Sfg ∧ Per d.MW (make d).Gfm (make d).Gf ∧ Per d.MW (make d).Sfm (make d).Sf
    ∧ (d.hfg ≠ none → Per d.MW (make d).Hfgm (make d).Hfg) := by
  obtain ⟨k1, k2, k3, k4, k5, k6, k7, k8, k9, k10, k11, k12, k13, k14, k15⟩ := make_kept d
  have hH : (make d).Hf = mass d (make d).Hfm := by
    have hS : ∀ (r : Rec), r.Hf = mass d r.Hfm → (adjustS d r).Hf = mass d (adjustS d r).Hfm := by
      intro r hr
      unfold adjustS
      have : ∀ o, (storeS d r o).Hf = mass d (storeS d r o).Hfm := by intro o; rcases o with _ | o <;> exact hr
      split_ifs
      all_goals first | exact this _ | exact hr
    have hH : (adjustH d (first d)).Hf = mass d (adjustH d (first d)).Hfm := by
      unfold adjustH
      split_ifs
      all_goals first | rfl | skip
      all_goals first
        | (generalize (do return (← (first d).Hfgm) - (← d.hvap298) : Option ℚ) = o; rcases o with _ | o <;> rfl)
        | (generalize (do return (← (first d).Hfm) + (← d.hvap298) : Option ℚ) = o; rcases o with _ | o <;> rfl)
        | (generalize (first d).Hfgm = o; rcases o with _ | o <;> rfl)
        | (cases (first d).Hfm <;> rfl)
    exact hS _ hH
  have hS : (make d).S0 = mass d (make d).S0m := by
    have hr : ∀ r : Rec, r.S0 = mass d r.S0m → (adjustS d r).S0 = mass d (adjustS d r).S0m := by
      intro r hr
      unfold adjustS
      by_cases h : r.S0gm.isSome ∧ r.S0m = none
      · rw [if_pos h]
        generalize (if d.phase = some .l then r.S0gm.bind d.conv else if d.phase = some .g then r.S0gm else none) = o
        rcases o with _ | o
        · exact hr
        · rfl
      · rw [if_neg h]; exact hr
    refine hr (adjustH d (first d)) ?_
    have : ∀ o, (storeH d (first d) o).S0 = none ∧ (storeH d (first d) o).S0m = none ∧ (storeHg d (first d) o).S0 = none ∧ (storeHg d (first d) o).S0m = none := by
      intro o; rcases o with _ | o <;> exact ⟨rfl, rfl, rfl, rfl⟩
    unfold adjustH
    split_ifs
    all_goals first | (simp only [this]; rfl) | rfl
  refine ⟨by rw [hH]; exact per_mass _ _, by rw [k1, k3]; exact per_mass _ _, by rw [k2, k4]; exact per_mass _ _, by rw [k12, k13]; exact per_mass _ _,
    by rw [k14, k15]; exact per_mass _ _, by rw [k6, k7]; exact per_mass _ _, by rw [hS]; exact per_mass _ _, by rw [k8, k9]; exact per_mass _ _,
    by rw [k10, k11]; exact per_mass _ _, per_mass d _, per_mass d _, ?_⟩
  intro hg
  have : (make d).Hfg = mass d d.hfg := by
    have hS : ∀ r : Rec, (adjustS d r).Hfg = r.Hfg := by
      intro r
      unfold adjustS
      have : ∀ o, (storeS d r o).Hfg = r.Hfg := by intro o; rcases o with _ | o <;> rfl
      split_ifs <;> simp [this]
    have h0 : (make d).Hfg = (adjustH d (first d)).Hfg := by unfold make finish; exact hS _
    rw [h0, adjustH]
    have : ∀ o, (storeH d (first d) o).Hfg = mass d d.hfg := by intro o; rcases o with _ | o <;> rfl
    have e2 : (first d).Hfgm = d.hfg := rfl
    by_cases h : (first d).Hfgm.isSome ∧ (first d).Hfm = none
    · rw [if_pos h, this]
    · rw [if_neg h, if_neg (by rw [e2]; exact fun x => hg x.2)]; rfl
  rw [k5, this]; exact per_mass _ _

/-- **C142.** A missing enthalpy of formation of a liquid is that of the gas less the enthalpy of vaporization, of a gas that of the gas; the entropy of a liquid is converted from that of the gas. -/
theorem C142_stable (d : Data) (h0 : found d = none) :
    (∀ g v, d.phase = some .l → d.hfg = some g → d.hvap298 = some v → (make d).Hfm = some (g - v)) ∧ (∀ g, d.phase = some .g → d.hfg = some g → (make d).Hfm = some g)
    ∧ (d.hfg = none ∨ (d.phase = some .l ∧ d.hvap298 = none) ∨ d.phase = some .s ∨ d.phase = none → (make d).Hfm = none)
    ∧ (∀ s, d.phase = some .l → d.s0g = some s → (make d).S0m = d.conv s) ∧ (d.s0g = none → (make d).S0m = none) := by
  refine ⟨fun g v hp hg hv => ?_, fun g hp hg => ?_, ?_, fun s hp hs => ?_, fun hs => ?_⟩
  · rw [make_Hfm, h0, hg]; simp [hp, hv]
  · rw [make_Hfm, h0, hg]; simp [hp]
  · rw [make_Hfm, h0]
    rintro (h | ⟨h, h'⟩ | h | h)
    · rw [h]
    all_goals rcases d.hfg with _ | g
    all_goals first | rfl | simp [h, h'] | simp [h]
  · rw [make_S0m, hp, hs]; rfl
  · rw [make_S0m, hs]; split_ifs <;> rfl

/-- Water with the enthalpy of formation of the liquid only. -/
def water : Data where
  MW := 18
  phase := some .l
  hfs := none
  hfl := some (-285830)
  hfg := none
  s0g := some 188
  hvap298 := some 44000
  hhv := fun h => some (-285830 - h)
  water := 1
  conv := fun s => some (s - 118)
  atoms := [("H", 2), ("O", 1)]
  table := fun a => if a = "H" then some ⟨0, 130, true⟩ else if a = "O" then some ⟨0, 205, true⟩ else none

/-- Water with the enthalpy of formation of the gas only. -/
def steam : Data := { water with hfl := none, hfg := some (-241830) }

example : found steam = none ∧ steam.phase = some .l ∧ steam.hfg = some (-241830) ∧ steam.hvap298 = some 44000 := ⟨rfl, rfl, rfl, rfl⟩

example : water.hfg = none ∧ steam.hfg ≠ none ∧ (make steam).Hfgm = some (-241830) ∧ (make steam).Hfg = some (-241830 * 1000 / 18) := by
  refine ⟨rfl, by simp [steam], rfl, rfl⟩

/-- **C142 fails.** Where the enthalpy of formation of the gas is found from that of the liquid, only the value per kilogram is set: the molar value, the Gibbs energy, the entropy of formation and
the enthalpy of combustion of the gas stay unknown. -/
theorem C142_mass_fails (d : Data) (f v : ℚ) (hp : d.phase = some .l) (hf : d.hfl = some f) (hg : d.hfg = none) (hv : d.hvap298 = some v) :
    (make d).Hfg = some ((f + v) * 1000 / d.MW) ∧ (make d).Hfgm = none ∧ (make d).Gfgm = none ∧ (make d).Sfgm = none ∧ (make d).Hcgm = none ∧ ¬ Per d.MW (make d).Hfgm (make d).Hfg := by
  obtain ⟨k1, k2, k3, k4, k5, k6, k7, k8, k9, k10, k11, k12, k13, k14, k15⟩ := make_kept d
  have hS : ∀ r : Rec, (adjustS d r).Hfg = r.Hfg := by
    intro r
    unfold adjustS
    have : ∀ o, (storeS d r o).Hfg = r.Hfg := by intro o; rcases o with _ | o <;> rfl
    split_ifs <;> simp [this]
  have h0 : (make d).Hfg = (adjustH d (first d)).Hfg := by unfold make finish; exact hS _
  have e1 : (first d).Hfm = some f := by show found d = _; simp [found, hp, hf]
  have e2 : (first d).Hfgm = none := hg
  have h1 : (make d).Hfg = some ((f + v) * 1000 / d.MW) := by
    rw [h0, adjustH, e1, e2]
    simp only [Option.isSome_none, Bool.false_eq_true, false_and, if_false, Option.isSome_some, and_self, if_true, hp, hv]
    rfl
  refine ⟨h1, by rw [k5, hg], by rw [k8, hg]; rfl, by rw [k10, hg]; rfl, by rw [k12, hg]; rfl, ?_⟩
  rw [h1, k5, hg]
  rintro (⟨-, h⟩ | ⟨x, h, -⟩) <;> cases h

example : water.phase = some .l ∧ water.hfl = some (-285830) ∧ water.hfg = none ∧ water.hvap298 = some 44000 := ⟨rfl, rfl, rfl, rfl⟩

/-- **C142, partial.** Where the enthalpy of formation is found in the data, the enthalpies of combustion are those of the reaction with it, the lower without the heat of the water. Missing: values
derived from the other phase. -/
theorem C142_combustion_partial (d : Data) :
    (∀ f, found d = some f → (make d).Hfm = some f ∧ (make d).Hcm = d.hhv f ∧ ∀ q, d.hhv f = some q → (make d).HcmL = some (q + 44011.496 * d.water))
    ∧ (∀ g, d.hfg = some g → (make d).Hfgm = some g ∧ (make d).Hcgm = d.hhv g ∧ ∀ q, d.hhv g = some q → (make d).HcgmL = some (q + 44011.496 * d.water)) := by
  obtain ⟨k1, k2, k3, k4, k5, k6, k7, k8, k9, k10, k11, k12, k13, k14, k15⟩ := make_kept d
  refine ⟨fun f hf => ⟨by rw [make_Hfm, hf], by rw [k1, hf]; rfl, fun q hq => by rw [k2, hf]; simp [lower, hq]⟩,
    fun g hg => ⟨by rw [k5, hg], by rw [k12, hg]; rfl, fun q hq => by rw [k14, hg]; simp [lower, hq]⟩⟩

example : found water = some (-285830) ∧ (make water).Hcm = some 0 := by refine ⟨rfl, ?_⟩; rw [(make_kept water).1]; simp [found, water]

/-- **C142 fails.** Where the enthalpy of formation of a liquid is derived from that of the gas, it is reported but the enthalpy of combustion with it is not, even where the reaction is known. -/
theorem C142_combustion_fails (d : Data) (g v : ℚ) (hp : d.phase = some .l) (hf : d.hfl = none) (hg : d.hfg = some g) (hv : d.hvap298 = some v) :
    (make d).Hfm = some (g - v) ∧ (make d).Hcm = none ∧ (make d).HcmL = none := by
  obtain ⟨k1, k2, -⟩ := make_kept d
  have e : found d = none := by simp [found, hp, hf]
  refine ⟨by rw [make_Hfm, e, hg]; simp [hp, hv], by rw [k1, e]; rfl, by rw [k2, e]; rfl⟩

example : steam.phase = some .l ∧ steam.hfl = none ∧ steam.hfg = some (-241830) ∧ steam.hvap298 = some 44000 ∧ steam.hhv (-241830 - 44000) = some 0 :=
  ⟨rfl, rfl, rfl, rfl, by norm_num [steam, water]⟩

/-- Moles of the elements' stable form per mole of the compound. -/
def moles (e : Elem) (n : ℚ) : ℚ := if e.two then n / 2 else n

/-- Sum over the elements of the compound of a property of the stable form. -/
def elements (table : String → Option Elem) (p : Elem → ℚ) : List (String × ℚ) → ℚ
  | [] => 0
  | (a, n) :: t => ((table a).map fun e => moles e n * p e).getD 0 + elements table p t

theorem sums_eq (d : Data) (l : List (String × ℚ)) (h : ∀ a ∈ l, (d.table a.1).isSome) : sums d l = some (elements d.table Elem.Hf l, elements d.table Elem.S0 l) := by
  induction l with
  | nil => rfl
  | cons a t ih =>
    obtain ⟨a, n⟩ := a
    obtain ⟨e, he⟩ := Option.isSome_iff_exists.mp (h (a, n) (by simp))
    rw [sums, ih fun b hb => h b (by simp [hb])]
    obtain ⟨H, S, two⟩ := e
    cases two <;> simp [elemental, elements, he, moles] <;> constructor <;> ring

theorem sums_none (d : Data) (l : List (String × ℚ)) (h : ∃ a ∈ l, d.table a.1 = none) : sums d l = none := by
  induction l with
  | nil => obtain ⟨a, ha, -⟩ := h; simp at ha
  | cons a t ih =>
    obtain ⟨a, n⟩ := a
    obtain ⟨b, hb, hn⟩ := h
    rcases List.mem_cons.mp hb with rfl | hb
    · simp only at hn
      simp [sums, elemental, hn]
    · rw [sums, ih ⟨b, hb, hn⟩]
      rcases elemental d a with _ | e <;> rfl

/-- **C142.** Gibbs energy and entropy of formation, for the stable phase and for the gas: enthalpy and entropy of the compound less those of the elements in their stable forms, at 298.15 K; unknown
if one of the elements, the enthalpy or the entropy is. -/
theorem C142_gibbs (d : Data) (h s : ℚ) :
    ((make d).Hfm = some h → (make d).S0m = some s → (∀ a ∈ d.atoms, (d.table a.1).isSome) →
      (make d).Gfm = some ((h - elements d.table Elem.Hf d.atoms) - 298.15 * (s - elements d.table Elem.S0 d.atoms))
      ∧ (make d).Sfm = some ((s - elements d.table Elem.S0 d.atoms) + elements d.table Elem.Hf d.atoms / 298.15))
    ∧ (d.hfg = some h → d.s0g = some s → (∀ a ∈ d.atoms, (d.table a.1).isSome) →
      (make d).Gfgm = some ((h - elements d.table Elem.Hf d.atoms) - 298.15 * (s - elements d.table Elem.S0 d.atoms))
      ∧ (make d).Sfgm = some ((s - elements d.table Elem.S0 d.atoms) + elements d.table Elem.Hf d.atoms / 298.15))
    ∧ ((make d).Hfm = none ∨ (make d).S0m = none ∨ (∃ a ∈ d.atoms, d.table a.1 = none) → (make d).Gfm = none ∧ (make d).Sfm = none)
    ∧ (d.hfg = none ∨ d.s0g = none ∨ (∃ a ∈ d.atoms, d.table a.1 = none) → (make d).Gfgm = none ∧ (make d).Sfgm = none) := by
  obtain ⟨k1, k2, k3, k4, k5, k6, k7, k8, k9, k10, -⟩ := make_kept d
  have g1 : (make d).Gfm = gibbs d (make d).Hfm (make d).S0m := rfl
  have g2 : (make d).Sfm = entropy (make d).Hfm (make d).Gfm := rfl
  have e1 : ∀ h s : ℚ, (∀ a ∈ d.atoms, (d.table a.1).isSome) → gibbs d (some h) (some s) = some ((h - elements d.table Elem.Hf d.atoms) - 298.15 * (s - elements d.table Elem.S0 d.atoms)) := by
    intro h s ha; simp [gibbs, sums_eq d _ ha]
  have e2 : ∀ H S : Option ℚ, (H = none ∨ S = none ∨ (∃ a ∈ d.atoms, d.table a.1 = none)) → gibbs d H S = none := by
    rintro H S (rfl | rfl | hn)
    · rfl
    · rcases H with _ | H <;> rfl
    · rcases H with _ | H <;> rcases S with _ | S <;> simp [gibbs, sums_none d _ hn]
  have e3 : ∀ H : Option ℚ, entropy H none = none := by intro H; rcases H with _ | H <;> rfl
  have e4 : ∀ a b c : ℚ, entropy (some a) (some ((a - b) - 298.15 * (s - c))) = some ((s - c) + b / 298.15) := by
    intro a b c; simp only [entropy, Option.bind_eq_bind, Option.bind_some, Option.pure_def, Option.some.injEq]; ring
  refine ⟨fun a b c => ?_, fun a b c => ?_, fun a => ?_, fun a => ?_⟩
  · rw [g2, g1, a, b, e1 h s c]; exact ⟨rfl, e4 _ _ _⟩
  · rw [k8, k10, a, b, e1 h s c]; exact ⟨rfl, e4 _ _ _⟩
  · rw [g2, g1, e2 _ _ a]; exact ⟨rfl, e3 _⟩
  · rw [k8, k10, e2 _ _ a]; exact ⟨rfl, e3 _⟩

example : (make water).Hfm = some (-285830) ∧ (make water).S0m = some 70 ∧ (∀ a ∈ water.atoms, (water.table a.1).isSome) ∧ elements water.table Elem.S0 water.atoms = 130 + 205 / 2 := by
  refine ⟨by rw [make_Hfm]; rfl, by rw [make_S0m]; norm_num [water], ?_, ?_⟩
  · intro a ha
    simp only [water, List.mem_cons, List.not_mem_nil, or_false] at ha ⊢
    rcases ha with rfl | rfl <;> simp
  · norm_num [water, elements, moles, show ("O" = "H") = False by decide]

/-- **C142.** Of a compound that is a gas at standard conditions, the values of the stable phase and of the gas agree. -/
theorem C142_gas (d : Data) (h : d.phase = some .g) : (make d).Hfm = (make d).Hfgm ∧ (make d).S0m = (make d).S0gm ∧ (make d).Gfm = (make d).Gfgm ∧ (make d).Sfm = (make d).Sfgm
    ∧ (make d).Hcm = (make d).Hcgm ∧ (make d).HcmL = (make d).HcgmL := by
  obtain ⟨k1, k2, k3, k4, k5, k6, k7, k8, k9, k10, k11, k12, k13, k14, k15⟩ := make_kept d
  have e : found d = d.hfg := by simp [found, h]
  have a : (make d).Hfm = d.hfg := by rw [make_Hfm, e]; rcases d.hfg with _ | x <;> rfl
  have b : (make d).S0m = d.s0g := by rw [make_S0m, h]; rfl
  have g1 : (make d).Gfm = gibbs d (make d).Hfm (make d).S0m := rfl
  have g2 : (make d).Sfm = entropy (make d).Hfm (make d).Gfm := rfl
  refine ⟨by rw [a, k5], by rw [b, k6], by rw [g1, a, b, k8], by rw [g2, g1, a, b, k10], by rw [k1, e, k12], by rw [k2, e, k14]⟩

example : ({ steam with phase := some .g } : Data).phase = some .g := rfl

/-- **C142 fails.** Of a solid, and where the phase is not known, entropy, Gibbs energy and entropy of formation are never known, whatever the data. -/
theorem C142_solid_fails (d : Data) (h : d.phase = some .s ∨ d.phase = none) : (make d).S0m = none ∧ (make d).Gfm = none ∧ (make d).Sfm = none := by
  have b : (make d).S0m = none := by rw [make_S0m]; rcases h with h | h <;> rw [h] <;> rfl
  exact ⟨b, ((C142_gibbs d 0 0).2.2.1 (.inr (.inl b)))⟩

example : ∃ d : Data, d.phase = some .s ∧ d.hfs = some (-1) ∧ d.s0g = some 1 := ⟨{ water with phase := some .s, hfs := some (-1), s0g := some 1 }, rfl, rfl, rfl⟩

/-! ## Constants of one phase or of a transition -/

/-- Python truth of a number or `None`. -/
def truthy : Option ℚ → Bool
  | some x => x ≠ 0
  | none => false

/-- `Zc`, `rhoc`, `rhocm` (974-976). -/
def critical (R MW : ℚ) (Tc Pc Vc : Option ℚ) : Option ℚ × Option ℚ × Option ℚ :=
  (if truthy Tc && truthy Pc && truthy Vc then (do return (← Pc) * (← Vc) / (R * (← Tc))) else none,
   if truthy Vc then Vc.map fun V => MW / 1000 / V else none,
   if truthy Vc then Vc.map fun V => 1 / V else none)

/-- **C142.** The critical compressibility, molar and mass densities fit the critical point; each is unknown when what it needs is. -/
theorem C142_critical (R MW T P V : ℚ) (hR : R ≠ 0) (hT : T ≠ 0) (hP : P ≠ 0) (hV : V ≠ 0) :
    (∃ Z r m, critical R MW (some T) (some P) (some V) = (some Z, some r, some m) ∧ P = Z * m * R * T ∧ r = m * (MW / 1000) ∧ m * V = 1)
    ∧ (∀ Tc Pc, (critical R MW Tc Pc none) = (none, none, none)) ∧ ∀ Tc Pc, Tc = none ∨ Pc = none → (critical R MW Tc Pc (some V)).1 = none ∧ (critical R MW Tc Pc (some V)).2.2 = some (1 / V) := by
  refine ⟨⟨P * V / (R * T), MW / 1000 / V, 1 / V, ?_, ?_, ?_, ?_⟩, ?_, ?_⟩
  · simp [critical, truthy, hT, hP, hV]
  · field_simp
  · field_simp
  · field_simp
  · intro Tc Pc; simp [critical, truthy]
  · rintro Tc Pc (rfl | rfl) <;> simp [critical, truthy, hV]

example : critical 8 18 (some 647) (some 22064000) (some (56/1000000)) = (some (22064000 * (56/1000000) / (8 * 647)), some (18/1000/(56/1000000)), some (1/(56/1000000))) := by
  norm_num [critical, truthy]

/-- `Hvap_Tbm`, `Hvap_Tb`, `Svap_Tbm` (1206-1208). -/
def vaporization (MW : ℚ) (hv : ℚ → Option ℚ) (Tb : Option ℚ) : Option ℚ × Option ℚ × Option ℚ :=
  let m := if truthy Tb then Tb.bind hv else none
  let w := m.map fun x => x * 1000 / MW
  (m, w, do return (← w) / (← Tb))

/-- Entropy of fusion and of sublimation (1219, 1221). -/
def transition (H T : Option ℚ) : Option ℚ := do return (← H) / (← T)

/-- **C142, partial.** The enthalpy of vaporization at the boiling point, per mole and per kilogram. Missing: the entropy, see `C142_vaporization_fails`. -/
theorem C142_vaporization_partial (MW T h : ℚ) (hv : ℚ → Option ℚ) (hT : T ≠ 0) (e : hv T = some h) :
    (vaporization MW hv (some T)).1 = some h ∧ Per MW (vaporization MW hv (some T)).1 (vaporization MW hv (some T)).2.1 ∧ vaporization MW hv none = (none, none, none) := by
  refine ⟨by simp [vaporization, truthy, hT, e], .inr ⟨h, ?_, ?_⟩, rfl⟩ <;> simp [vaporization, truthy, hT, e]

example : (vaporization 18 (fun _ => some 40650) (some 373)).1 = some 40650 := by norm_num [vaporization, truthy]

/-- **C142 fails.** The molar entropy of vaporization at the boiling point is computed from the enthalpy per kilogram: it is wrong by the factor `1000/MW`, except for molar masses of 1000. The
entropies of fusion and sublimation are computed from molar values. -/
theorem C142_vaporization_fails (MW T h : ℚ) (hv : ℚ → Option ℚ) (hT : T ≠ 0) (e : hv T = some h) (hh : h ≠ 0) (hM : MW ≠ 0) (hne : MW ≠ 1000) :
    (vaporization MW hv (some T)).2.2 = some (h / T * (1000 / MW)) ∧ (vaporization MW hv (some T)).2.2 ≠ some (h / T) ∧ transition (some h) (some T) = some (h / T) := by
  have k : (vaporization MW hv (some T)).2.2 = some (h / T * (1000 / MW)) := by
    simp [vaporization, truthy, hT, e]; field_simp
  refine ⟨k, ?_, rfl⟩
  rw [k]
  intro q
  have q := Option.some.inj q
  have : (1000 : ℚ) / MW = 1 := by
    have h1 : h / T ≠ 0 := div_ne_zero hh hT
    exact mul_left_cancel₀ h1 (by rw [q, mul_one])
  rw [div_eq_one_iff_eq hM] at this
  exact hne this.symm

example : (vaporization 18 (fun _ => some 40650) (some 373)).2.2 = some (40650 * 1000 / 18 / 373) := by norm_num [vaporization, truthy]

/-- `rhoml_STP`, `rhol_STP` and the same at 60 F (1176-1182). -/
def densities (MW : ℚ) (V : Option ℚ) : Option ℚ × Option ℚ := if truthy V then (V.map (1 / ·), V.map (MW / 1000 / ·)) else (none, none)

/-- `rhoms_Tm`, `rhos_Tm` (1194-1195); `none` for the division by zero. -/
def densitiesSolid (MW : ℚ) : Option ℚ → Option (Option ℚ × Option ℚ)
  | none => some (none, none)
  | some V => if V = 0 then none else some (some (1 / V), some (MW / 1000 / V))

/-- **C142.** Densities of liquid and solid are those of the molar volume, unknown where it is; a volume of zero counts as unknown for the liquid and raises for the solid. -/
theorem C142_densities (MW V : ℚ) (hV : V ≠ 0) :
    (∃ m w, densities MW (some V) = (some m, some w) ∧ densitiesSolid MW (some V) = some (some m, some w) ∧ m * V = 1 ∧ w = m * (MW / 1000))
    ∧ densities MW none = (none, none) ∧ densitiesSolid MW none = some (none, none) ∧ densities MW (some 0) = (none, none) ∧ densitiesSolid MW (some 0) = none := by
  refine ⟨⟨1 / V, MW / 1000 / V, by simp [densities, truthy, hV], by simp [densitiesSolid, hV], by field_simp, by field_simp⟩, rfl, rfl, by simp [densities, truthy], by simp [densitiesSolid]⟩

example : densities 18 (some (18/1000000)) = (some (1/(18/1000000)), some (18/1000/(18/1000000))) := by norm_num [densities, truthy]

/-- `Pt`, `Pt_source` (1053-1055). -/
def triplePressure (psat : ℚ → Option ℚ) (Pt Tt : Option ℚ) (src : Option String) : Option ℚ × Option String :=
  match Pt, Tt with
  | none, some T => (psat T, some "VaporPressure")
  | _, _ => (Pt, src)

/-- `Vml_Tm` (1173) and the volume given to `VolumeSolid` as `Vml_Tt` (1190, also chemical_package.py 236). -/
def solidVolume (vl : ℚ → Option ℚ) (Tm : Option ℚ) : Option ℚ := if truthy Tm then Tm.bind vl else none

/-- **C142.** A triple pressure found in the data is kept, otherwise it is the vapor pressure at the triple temperature. -/
theorem C142_triple (psat : ℚ → Option ℚ) (src : Option String) :
    (∀ P Tt, triplePressure psat (some P) Tt src = (some P, src)) ∧ (∀ T, (triplePressure psat none (some T) src).1 = psat T) ∧ triplePressure psat none none src = (none, src) :=
  ⟨fun _ Tt => by rcases Tt with _ | T <;> rfl, fun _ => rfl, rfl⟩

/-- **C142 fails.** A correlation without a value at the triple point is named as the source all the same. -/
theorem C142_triple_fails : ∃ (psat : ℚ → Option ℚ) (T : ℚ), 0 < T ∧ triplePressure psat none (some T) none = (none, some "VaporPressure") := ⟨fun _ => none, 273, by norm_num, rfl⟩

/-- **C142 fails.** The volume of the liquid at the triple point, from which the volume of the solid is found, is that at the melting point: right only where the two agree. -/
theorem C142_solid_volume_fails (vl : ℚ → Option ℚ) : (∀ Tm, Tm ≠ 0 → solidVolume vl (some Tm) = vl Tm)
    ∧ (∃ (vl : ℚ → Option ℚ) (Tm Tt : ℚ), Tm ≠ 0 ∧ Tt ≠ 0 ∧ (vl Tt).isSome ∧ solidVolume vl (some Tm) ≠ vl Tt) ∧ solidVolume vl none = none := by
  refine ⟨fun Tm h => by simp [solidVolume, truthy, h], ⟨fun T => some T, 195, 216, by norm_num, by norm_num, rfl, ?_⟩, rfl⟩
  norm_num [solidVolume, truthy]

/-! ## Databases of the user -/

/-- A database: for each compound and property the arguments to make it with. -/
abbrev DB (V : Type) := String → String → Option V

/-- `loaded_user_dbs`, `loaded_user_db_paths`. -/
structure St (V : Type) where
  dbs : List (DB V)
  paths : List String

/-- Lines 231-236; `false` where a file is missing or not readable. -/
def load {V : Type} (files : String → Option (DB V)) : List String → St V → St V × Bool
  | [], s => (s, true)
  | p :: t, s => match files p with
    | some db => load files t ⟨s.dbs ++ [db], s.paths ++ [p]⟩
    | none => (s, false)

/-- `set_user_chemical_property_databases(paths)` (227-236). -/
def setDbs {V : Type} (files : String → Option (DB V)) (paths : List String) (_s : St V) : St V × Bool := load files paths ⟨[], []⟩

/-- The same called with the list `loaded_user_db_paths` itself, which line 229 empties. -/
def setOwn {V : Type} (files : String → Option (DB V)) (_s : St V) : St V × Bool := load files [] ⟨[], []⟩

/-- The first database that has an entry (204-209). -/
def firstOf {V : Type} (cas key : String) : List (DB V) → Option V
  | [] => none
  | db :: t => match db cas key with
    | some v => some v
    | none => firstOf cas key t

/-- `user_chemical_property_lookup` (202-222); `none` for `{}`. `lock` is `property_lock`, `compiled` the entry of `loaded_chemicals` with the default fit. -/
def lookup {V : Type} (lock : Bool) (compiled : DB V) (s : St V) (cas key : String) : Option V :=
  if s.dbs ≠ [] then firstOf cas key s.dbs else if lock then compiled cas key else none

/-- `with UserDatabaseContext(paths): body` (238-254): the state afterwards, and whether the body was run. An exception of the body is passed on after line 253. -/
def context {V : Type} (files : String → Option (DB V)) (paths : List String) (body : St V → St V) (s : St V) : St V × Bool :=
  if paths = s.paths then (body s, true)
  else match setDbs files paths s with
    | (s', true) => ((fun _ : St V => s) (body s'), true)
    | (s', false) => (s', false)

theorem load_ok {V : Type} (files : String → Option (DB V)) (paths : List String) (dbs : List (DB V)) (h : paths.map files = dbs.map some) (s : St V) :
    load files paths s = (⟨s.dbs ++ dbs, s.paths ++ paths⟩, true) := by
  induction paths generalizing dbs s with
  | nil =>
    rcases dbs with _ | ⟨d, t⟩
    · simp [load]
    · simp at h
  | cons p t ih =>
    rcases dbs with _ | ⟨d, u⟩
    · simp at h
    · simp only [List.map_cons, List.cons.injEq] at h
      simp [load, h.1, ih u h.2]

/-- **C142.** After databases are set, exactly those are searched, in the order given: the entry of the first that has one is used, and no other data. -/
theorem C142_databases {V : Type} (files : String → Option (DB V)) (paths : List String) (dbs : List (DB V)) (h : paths.map files = dbs.map some) (hne : paths ≠ []) (s : St V) (lock : Bool)
    (compiled : DB V) (cas key : String) :
    (setDbs files paths s).2 = true ∧ (setDbs files paths s).1.paths = paths ∧
    (∀ i v, (hi : i < dbs.length) → dbs[i] cas key = some v → (∀ j, (hj : j < i) → dbs[j] cas key = none) → lookup lock compiled (setDbs files paths s).1 cas key = some v)
    ∧ ((∀ db ∈ dbs, db cas key = none) → lookup lock compiled (setDbs files paths s).1 cas key = none) := by
  have hl := load_ok files paths dbs h ⟨[], []⟩
  have hd : dbs ≠ [] := by rintro rfl; simp at h; exact hne h
  have e : setDbs files paths s = (⟨dbs, paths⟩, true) := by rw [setDbs, hl]; simp
  rw [e]
  refine ⟨rfl, rfl, ?_, ?_⟩
  · intro i v hi hv hj
    rw [lookup, if_pos hd]
    clear hl e h hne hd
    show firstOf cas key dbs = _
    induction dbs generalizing i with
    | nil => simp at hi
    | cons d t ih =>
      rcases i with _ | i
      · simp only [List.getElem_cons_zero] at hv
        rw [firstOf, hv]
      · have h0 := hj 0 (by omega)
        simp only [List.getElem_cons_zero] at h0
        rw [firstOf, h0]
        exact ih i (by simpa using hi) (by simpa using hv) fun j hj' => by simpa using hj (j + 1) (by omega)
  · intro hn
    rw [lookup, if_pos hd]
    clear hl e h hne hd
    show firstOf cas key dbs = _
    induction dbs with
    | nil => rfl
    | cons d t ih => rw [firstOf, hn d (by simp)]; exact ih fun db hb => hn db (by simp [hb])

example : (["a", "b"].map fun p => if p = "a" then some (fun _ _ => some 1 : DB ℕ) else some fun _ _ => some 2) = [(fun _ _ => some 1 : DB ℕ), fun _ _ => some 2].map some := by simp

/-- **C142.** Without databases of the user, the compiled data are used if and only if properties are locked. -/
theorem C142_lock {V : Type} (lock : Bool) (compiled : DB V) (p : List String) (cas key : String) :
    lookup lock compiled ⟨[], p⟩ cas key = if lock then compiled cas key else none := by simp [lookup]

/-- **C142, partial.** A context with other databases than those loaded runs its body with the databases asked for, and leaves those loaded before, whatever the body does. Missing: contexts with the
databases already loaded, and files that cannot be read. -/
theorem C142_context_partial {V : Type} (files : String → Option (DB V)) (paths : List String) (dbs : List (DB V)) (h : paths.map files = dbs.map some) (body : St V → St V) (s : St V)
    (hne : paths ≠ s.paths) : context files paths body s = (s, true) ∧ (setDbs files paths s).1 = ⟨dbs, paths⟩ := by
  have e : setDbs files paths s = (⟨dbs, paths⟩, true) := by rw [setDbs, load_ok files paths dbs h]; simp
  refine ⟨?_, by rw [e]⟩
  rw [context, if_neg hne, e]

example : (["a"] : List String) ≠ (⟨[], []⟩ : St ℕ).paths := by simp

/-- **C142 fails.** A context with the databases already loaded does not restore them. -/
theorem C142_context_fails {V : Type} (files : String → Option (DB V)) (body : St V → St V) (s : St V) : context files s.paths body s = (body s, true) := by
  rw [context, if_pos rfl]

example : ∃ (s : St ℕ) (body : St ℕ → St ℕ), (context (fun _ => none) s.paths body s).1.paths ≠ s.paths :=
  ⟨⟨[], []⟩, fun _ => ⟨[fun _ _ => none], ["x"]⟩, by rw [C142_context_fails]; simp⟩

/-- **C142 fails.** A file that cannot be read leaves the databases before it loaded and those of before lost, for good: the body is not run and nothing is restored. -/
theorem C142_unreadable_fails {V : Type} (files : String → Option (DB V)) (good : List String) (dbs : List (DB V)) (h : good.map files = dbs.map some) (bad : String) (hb : files bad = none)
    (rest : List String) (body : St V → St V) (s : St V) (hne : good ++ bad :: rest ≠ s.paths) : context files (good ++ bad :: rest) body s = (⟨dbs, good⟩, false) := by
  have : ∀ t : St V, load files (good ++ bad :: rest) t = (⟨t.dbs ++ dbs, t.paths ++ good⟩, false) := by
    clear hne
    induction good generalizing dbs with
    | nil =>
      rcases dbs with _ | ⟨d, u⟩
      · intro t; simp [load, hb]
      · simp at h
    | cons p g ih =>
      rcases dbs with _ | ⟨d, u⟩
      · simp at h
      · simp only [List.map_cons, List.cons.injEq] at h
        intro t
        simp [load, h.1, ih u h.2]
  rw [context, if_neg hne, setDbs, this]
  rfl

example : ([] ++ "missing" :: [] : List String) ≠ (⟨[fun _ _ => some 1], ["a"]⟩ : St ℕ).paths := by decide

/-- **C142 fails.** Setting the databases to the list of those loaded removes them all. -/
theorem C142_alias_fails {V : Type} (files : String → Option (DB V)) (s : St V) : setOwn files s = (⟨[], []⟩, true) := rfl

/-! ## The compiled database -/

/-- A value of a row: a constant, or limits and coefficients of a correlation. -/
inductive Cell
  | const (x : Option ℚ)
  | corr (Tmin Tmax : ℚ) (Tc : Option ℚ) (c : List ℚ)
  | missing
deriving DecidableEq

/-- The variable `row` of `marshal_json_data`: the list being made, or the tuple of one property. -/
inductive Row
  | list (l : List Cell)
  | tuple (c : Cell)

/-- Lines 123-136 for one property: `row = (...)`, `row.append(row)`; `none` is the exception of a tuple without `append`. -/
def addProp (_row : Row) (c : Cell) : Option Row :=
  match Row.tuple c with
  | .tuple _ => none
  | .list l => some (.list (l ++ [c]))

/-- `marshal_properties` (147-164). -/
def written : List String := ["HeatCapacityGas", "HeatCapacityLiquid", "HeatCapacitySolid", "ThermalConductivityLiquid", "ThermalConductivityGas", "ViscosityLiquid", "ViscosityGas",
  "EnthalpyVaporization", "VaporPressure", "VolumeLiquid", "SublimationPressure", "EnthalpySublimation", "VolumeSolid", "SurfaceTension"]

/-- What lines 59-65 read the columns from 13 on as. -/
def readAs : List String := ["HeatCapacityGas", "HeatCapacityLiquid", "HeatCapacitySolid", "ThermalConductivityLiquid", "ThermalConductivityGas", "ViscosityLiquid", "ViscosityGas",
  "EnthalpyVaporization", "VaporPressure", "VolumeLiquid", "SublimationPressure", "EnthalpySublimation", "VolumeSolid", "VolumeSupercriticalLiquid"]

/-- The row of one compound (109-138): twelve constants and the name, then the properties. -/
def row (consts : List Cell) (props : String → Cell) : Option Row := written.foldlM (fun r k => addProp r (props k)) (.list consts)

/-- `marshal_json_data` (106-143). -/
def marshal (data : List (List Cell × (String → Cell))) : Option (List Row) := data.mapM fun d => row d.1 d.2

/-- **C142 fails.** The compiled database cannot be written, for any data: the variable of the row is replaced by that of a property. -/
theorem C142_marshal_fails (data : List (List Cell × (String → Cell))) (h : data ≠ []) : marshal data = none := by
  rcases data with _ | ⟨d, t⟩
  · exact absurd rfl h
  · have : row d.1 d.2 = none := rfl
    simp [marshal, this]

example : ([([Cell.const (some 1)], fun _ => Cell.missing)] : List (List Cell × (String → Cell))) ≠ [] := by simp

/-- **C142 fails.** Even where it is written, the surface tension is read as a volume; the other columns are read as what they were written for. -/
theorem C142_columns_fails : written.length = readAs.length ∧ (∀ i, i < 13 → written[i]? = readAs[i]?) ∧ written[13]? = some "SurfaceTension" ∧ readAs[13]? = some "VolumeSupercriticalLiquid"
    ∧ "SurfaceTension" ∉ readAs := by
  refine ⟨rfl, ?_, rfl, rfl, by decide +kernel⟩
  intro i hi
  interval_cases i <;> rfl

/-! ## Averages of `Mixture` (mixture.py 817-842) and its equations of state (847-883) -/

/-- `mixing_simple` of `chemicals`: `None` if a value is missing. -/
def mixing : List ℚ → List (Option ℚ) → Option ℚ
  | [], [] => some 0
  | z :: zs, some p :: ps => (mixing zs ps).map fun s => z * p + s
  | _, _ => none

/-- `eos_pures` (870-883): one equation of state for each component, `none` where the constants are missing. `mk` is the class; `now` the temperature and pressure of the mixture. -/
def eosPures {E : Type} (mk : ℚ → ℚ → ℚ × ℚ × ℚ → Option E) (cs : List (Option ℚ × Option ℚ × Option ℚ)) (T P : Option ℚ) (now : ℚ × ℚ) : List (Option E) :=
  cs.map fun c => do
    let a ← c.1
    let b ← c.2.1
    let w ← c.2.2
    mk (T.getD now.1) (P.getD now.2) (a, b, w)

/-- `set_eos` (847-852, chemical.py 1015-1020): the ideal gas where the class raises. -/
def setEos {E : Type} (mk : Option E) (ig : E) : E := mk.getD ig

/-- `speed_of_sound` (2500-2514); `none` for a solid. -/
def speed (phase : String) (l g x : ℚ) : Option ℚ :=
  if phase = "l" then some l else if phase = "g" then some g else if phase = "l/g" then some (g * x + (1 - x) * l) else none

/-- **C142.** A critical constant of a mixture lies between those of its components, and is unknown if and only if one of them is. -/
theorem C142_average (zs : List ℚ) (ps : List (Option ℚ)) (hl : zs.length = ps.length) :
    (mixing zs ps = none ↔ none ∈ ps) ∧ (∀ lo hi m, (∀ z ∈ zs, 0 ≤ z) → zs.sum = 1 → (∀ p ∈ ps, ∀ x, p = some x → lo ≤ x ∧ x ≤ hi) → mixing zs ps = some m → lo ≤ m ∧ m ≤ hi) := by
  refine ⟨?_, ?_⟩
  · induction zs generalizing ps with
    | nil => rcases ps with _ | ⟨p, ps⟩
             · simp [mixing]
             · simp at hl
    | cons z zs ih =>
      rcases ps with _ | ⟨p, ps⟩
      · simp at hl
      · rcases p with _ | p
        · simp [mixing]
        · simp [mixing, ih ps (by simpa using hl)]
  · intro lo hi m hz hs hp hm
    have key : ∀ (zs : List ℚ) (ps : List (Option ℚ)) (m : ℚ), (∀ z ∈ zs, 0 ≤ z) → (∀ p ∈ ps, ∀ x, p = some x → lo ≤ x ∧ x ≤ hi) → mixing zs ps = some m → lo * zs.sum ≤ m ∧ m ≤ hi * zs.sum := by
      intro zs
      induction zs with
      | nil => intro ps m _ _ hm
               rcases ps with _ | ⟨p, ps⟩
               · simp only [mixing, Option.some.injEq] at hm; subst hm; simp
               · simp [mixing] at hm
      | cons z zs ih =>
        intro ps m hz hp hm
        rcases ps with _ | ⟨p, ps⟩
        · simp [mixing] at hm
        · rcases p with _ | p
          · simp [mixing] at hm
          · simp only [mixing, Option.map_eq_some_iff] at hm
            obtain ⟨s, hs, rfl⟩ := hm
            obtain ⟨a, b⟩ := ih ps s (fun z h => hz z (by simp [h])) (fun p h => hp p (by simp [h])) hs
            obtain ⟨c, e⟩ := hp (some p) (by simp) p rfl
            have hz0 := hz z (by simp)
            rw [List.sum_cons]
            constructor <;> nlinarith
    have := key zs ps m hz hp hm
    rwa [hs, mul_one, mul_one] at this

example : mixing [1/2, 1/2] [some 600, some 400] = some 500 ∧ mixing [1/2, 1/2] [some 600, none] = none := by constructor <;> norm_num [mixing]

/-- **C142.** The list of equations of state has one entry for each component, made at the temperature and pressure given or else of the mixture. -/
theorem C142_eos_pures {E : Type} (mk : ℚ → ℚ → ℚ × ℚ × ℚ → Option E) (cs : List (Option ℚ × Option ℚ × Option ℚ)) (T P : Option ℚ) (now : ℚ × ℚ) (i : ℕ) (hi : i < cs.length) :
    (eosPures mk cs T P now).length = cs.length
    ∧ (∀ a b w, cs[i] = (some a, some b, some w) → (eosPures mk cs T P now)[i]? = some (mk (T.getD now.1) (P.getD now.2) (a, b, w)))
    ∧ (cs[i].1 = none ∨ cs[i].2.1 = none ∨ cs[i].2.2 = none → (eosPures mk cs T P now)[i]? = some none) ∧ ∀ e ig : E, setEos (some e) ig = e ∧ setEos none ig = ig := by
  refine ⟨by simp [eosPures], ?_, ?_, fun _ _ => ⟨rfl, rfl⟩⟩
  · intro a b w h
    simp [eosPures, hi, h]
  · intro h
    rcases hc : cs[i] with ⟨a, b, w⟩
    rw [hc] at h
    simp only at h
    simp only [eosPures, List.getElem?_map, List.getElem?_eq_getElem hi, hc, Option.map_some, Option.some.injEq]
    rcases h with rfl | rfl | rfl
    · rfl
    · rcases a with _ | a <;> rfl
    · rcases a with _ | a <;> rcases b with _ | b <;> rfl

example : (0 : ℕ) < [(some (647 : ℚ), some (22064000 : ℚ), (none : Option ℚ))].length := by simp

/-- **C142.** The speed of sound of two phases lies between those of the phases, and is that of one phase at quality zero and one. -/
theorem C142_speed (l g x : ℚ) (h0 : 0 ≤ x) (h1 : x ≤ 1) (hlg : g ≤ l) :
    ∃ c, speed "l/g" l g x = some c ∧ g ≤ c ∧ c ≤ l ∧ speed "l/g" l g 0 = speed "l" l g x ∧ speed "l/g" l g 1 = speed "g" l g x := by
  refine ⟨g * x + (1 - x) * l, by simp [speed], by nlinarith, by nlinarith, by simp [speed], by simp [speed]⟩

example : speed "l/g" 1500 400 (1/4) = some 1225 := by simp only [speed, show ("l/g" = "l") = False by decide, show ("l/g" = "g") = False by decide, if_false, if_true]; norm_num

end Verif.Derived
