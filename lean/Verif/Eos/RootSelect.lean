import Verif.Eos.CubicRoots

/-!
# Root selection and refresh of solved phases (`thermo/eos.py`)

* C29: `GCEOS.set_from_PT` (1183-1278).
* C30: `GCEOS.resolve_full_alphas` (1159-1165) and `solve_missing_volumes` (1167-1180).

The many attributes stored by `set_properties_from_solution` (1432-1467) are functions of the volume and of
the attraction term with its two temperature derivatives (temperature, pressure and the other parameters do
not change); a stored phase is therefore represented by that pair. `PIP`, the phase identification parameter
deciding the phase of a single root, is a parameter of the model, except in the witnesses, which use its
formula.
-/

namespace Verif.RootSelect

/-- `a_alpha`, `da_alpha_dT`, `d2a_alpha_dT2`. -/
abbrev Alphas := ℝ × ℝ × ℝ

/-- Stored properties of a phase: volume and attraction terms they were computed with. -/
abbrev Props := ℝ × Alphas

/-- `phase` attribute. -/
inductive Phase where
  | l | g | lg
  deriving DecidableEq

/-- The attributes of an equation of state object that matter: `V_l` etc., `V_g` etc. (absent before they
are set) and `phase`. -/
structure Eos where
  /-- liquid attributes -/
  l : Option Props
  /-- vapour attributes -/
  g : Option Props
  /-- phase -/
  phase : Option Phase

/-- A fresh object. -/
def fresh : Eos := ⟨none, none, none⟩

/-- The limit of `PIP` for a liquid (1450). -/
noncomputable def pipLimit : ℝ := 1 + 1 / 10 ^ 14

/-- `set_properties_from_solution` (1432-1467): stores the liquid or the vapour attributes and returns the
phase. -/
noncomputable def setProps (pip : Props → ℝ) (p : Props) (force_l force_g : Bool) (e : Eos) : Eos × Phase :=
  open Classical in
  if force_l = true ∨ (force_g = false ∧ pipLimit < pip p) then ({ e with l := some p }, .l)
  else ({ e with g := some p }, .g)

/-- The scan over the roots (1216-1228): smallest, largest, count. -/
noncomputable def scanStep (b : ℝ) (acc : ℝ × ℝ × ℕ) (V : ℂ) : ℝ × ℝ × ℕ :=
  open Classical in
  if V.re = 0 ∨ V.im = 0 ∨ |V.im / V.re| < 1 / 10 ^ 12 then
    if V.re ≤ b then acc
    else (if V.re < acc.1 then V.re else acc.1, if acc.2.1 < V.re then V.re else acc.2.1, acc.2.2 + 1)
  else acc

/-- The scan from its start values. -/
noncomputable def scan (b : ℝ) (Vs : List ℂ) : ℝ × ℝ × ℕ := Vs.foldl (scanStep b) (10 ^ 100, -10 ^ 100, 0)

/-- `set_from_PT` (1211-1278); `none` stands for the raised `ValueError`. `critical` is the test at
1242-1244 (a pure component exactly at its critical point). -/
noncomputable def setFromPT (pip : Props → ℝ) (critical : Bool) (b : ℝ) (al : Alphas) (Vs : List ℂ)
    (only_l only_g : Bool) (e : Eos) : Option Eos :=
  open Classical in
  let r := scan b Vs
  if r.2.2 = 1 ∨ r.1 = r.2.1 then
    let V := if r.1 ≠ 10 ^ 100 then r.1 else r.2.1
    let s := setProps pip (V, al) false false e
    let e1 := { s.1 with phase := some s.2 }
    if critical then
      let s2 := setProps pip (V, al) (decide (s.2 ≠ .l)) (decide (s.2 ≠ .g)) e1
      some { s2.1 with phase := some .lg }
    else some e1
  else if 1 < r.2.2 then
    let e1 := if only_g then e else (setProps pip (r.1, al) true false e).1
    let e2 := if only_l then e1 else (setProps pip (r.2.1, al) false true e1).1
    some { e2 with phase := some .lg }
  else none

/-- `resolve_full_alphas` (1159-1165). -/
noncomputable def resolveFull (pip : Props → ℝ) (critical : Bool) (b : ℝ) (full : Alphas) (Vs : List ℂ)
    (e : Eos) : Option Eos :=
  setFromPT pip critical b full Vs e.l.isSome e.g.isSome e

/-- `solve_missing_volumes` (1167-1180). -/
noncomputable def solveMissing (pip : Props → ℝ) (critical : Bool) (b : ℝ) (al : Alphas) (Vs : List ℂ)
    (e : Eos) : Option Eos :=
  if e.phase = some .lg then
    (if e.l.isSome then some e else setFromPT pip critical b al Vs true false e).bind fun e1 =>
      if e1.g.isSome then some e1 else setFromPT pip critical b al Vs false true e1
  else some e

/-! ## Specification -/

/-- The physical roots: numerically real, above the covolume. -/
def Good (b : ℝ) (Vs : List ℂ) (v : ℝ) : Prop :=
  ∃ V ∈ Vs, V.re = v ∧ (V.re = 0 ∨ V.im = 0 ∨ |V.im / V.re| < 1 / 10 ^ 12) ∧ b < v

/-- `v` is the smallest (largest) number with the property. -/
def Least (S : ℝ → Prop) (v : ℝ) : Prop := S v ∧ ∀ w, S w → v ≤ w
@[inherit_doc Least] def Greatest (S : ℝ → Prop) (v : ℝ) : Prop := S v ∧ ∀ w, S w → w ≤ v

/-- What the scan has found. -/
structure ScanInv (b : ℝ) (Vs : List ℂ) (r : ℝ × ℝ × ℕ) : Prop where
  none : r.2.2 = 0 ↔ ∀ v, ¬ Good b Vs v
  start : r.2.2 = 0 → r.1 = 10 ^ 100 ∧ r.2.1 = -10 ^ 100
  some : r.2.2 ≠ 0 → Least (Good b Vs) r.1 ∧ Greatest (Good b Vs) r.2.1
  one : r.2.2 = 1 → r.1 = r.2.1

theorem good_append (b : ℝ) (Vs : List ℂ) (V : ℂ) (v : ℝ) :
    Good b (Vs ++ [V]) v ↔ Good b Vs v ∨ Good b [V] v := by
  simp only [Good, List.mem_append, List.mem_singleton]
  constructor
  · rintro ⟨W, hW | hW, h⟩
    · exact Or.inl ⟨W, hW, h⟩
    · exact Or.inr ⟨W, hW, h⟩
  · rintro (⟨W, hW, h⟩ | ⟨W, hW, h⟩)
    · exact ⟨W, Or.inl hW, h⟩
    · exact ⟨W, Or.inr hW, h⟩

theorem good_single (b : ℝ) (V : ℂ) (v : ℝ) :
    Good b [V] v ↔ V.re = v ∧ (V.re = 0 ∨ V.im = 0 ∨ |V.im / V.re| < 1 / 10 ^ 12) ∧ b < v := by
  simp only [Good, List.mem_singleton, exists_eq_left]

theorem scan_inv (b : ℝ) (Vs : List ℂ) (hlim : ∀ v, Good b Vs v → |v| < 10 ^ 100) :
    ScanInv b Vs (scan b Vs) := by
  induction Vs using List.reverseRecOn with
  | nil =>
    have hn : ∀ v, ¬ Good b [] v := by rintro v ⟨V, hV, _⟩; cases hV
    exact ⟨⟨fun _ => hn, fun _ => rfl⟩, fun _ => ⟨rfl, rfl⟩, fun h => absurd rfl h, fun h => absurd h (by simp [scan])⟩
  | append_singleton Vs V ih =>
    have ih := ih (fun v hv => hlim v ((good_append b Vs V v).mpr (Or.inl hv)))
    have e : scan b (Vs ++ [V]) = scanStep b (scan b Vs) V := by
      simp only [scan, List.foldl_append, List.foldl_cons, List.foldl_nil]
    rw [e]
    generalize scan b Vs = r at ih
    obtain ⟨lo, hi, n⟩ := r
    have same : (∀ v, ¬ Good b [V] v) → ScanInv b (Vs ++ [V]) (lo, hi, n) := by
      intro hno
      have hg : ∀ v, Good b (Vs ++ [V]) v ↔ Good b Vs v := fun v => by
        rw [good_append]; exact or_iff_left (hno v)
      have hg' : Good b (Vs ++ [V]) = Good b Vs := funext fun v => propext (hg v)
      refine ⟨by rw [ih.none, hg'], ih.start, ?_, ih.one⟩
      rw [hg']; exact ih.some
    unfold scanStep
    split
    · rename_i hok
      split
      · rename_i hb
        refine same fun v hv => ?_
        obtain ⟨h1, _, h3⟩ := (good_single b V v).mp hv
        rw [← h1] at h3
        exact absurd h3 (not_lt.mpr hb)
      · rename_i hb
        have hV : Good b [V] V.re := (good_single b V V.re).mpr ⟨rfl, hok, not_le.mp hb⟩
        have hV' : Good b (Vs ++ [V]) V.re := (good_append b Vs V _).mpr (Or.inr hV)
        have hlimV := hlim _ hV'
        have hl := abs_lt.mp hlimV
        have hsingle : ∀ v, Good b [V] v → v = V.re := fun v hv => ((good_single b V v).mp hv).1.symm
        have hcases : ∀ v, Good b (Vs ++ [V]) v → Good b Vs v ∨ v = V.re := fun v hv =>
          ((good_append b Vs V v).mp hv).imp id (hsingle v)
        refine ⟨⟨fun h => absurd h (Nat.succ_ne_zero n), fun h => absurd hV' (h _)⟩,
          fun h => absurd h (Nat.succ_ne_zero n), fun _ => ?_, ?_⟩
        · dsimp only
          by_cases hn : n = 0
          · obtain ⟨s1, s2⟩ := ih.start hn
            dsimp only at s1 s2
            have hno := ih.none.mp hn
            rw [s1, s2, if_pos hl.2, if_pos hl.1]
            exact ⟨⟨hV', fun w hw => ((hcases w hw).resolve_left (hno w)).ge⟩,
              ⟨hV', fun w hw => ((hcases w hw).resolve_left (hno w)).le⟩⟩
          · obtain ⟨⟨a1, a2⟩, ⟨b1, b2⟩⟩ := ih.some hn
            dsimp only at a1 a2 b1 b2
            constructor
            · split
              · rename_i hlt
                refine ⟨hV', fun w hw => ?_⟩
                rcases hcases w hw with h | h
                · exact hlt.le.trans (a2 w h)
                · exact h.ge
              · rename_i hlt
                refine ⟨(good_append b Vs V _).mpr (Or.inl a1), fun w hw => ?_⟩
                rcases hcases w hw with h | h
                · exact a2 w h
                · rw [h]; exact not_lt.mp hlt
            · split
              · rename_i hlt
                refine ⟨hV', fun w hw => ?_⟩
                rcases hcases w hw with h | h
                · exact (b2 w h).trans hlt.le
                · exact h.le
              · rename_i hlt
                refine ⟨(good_append b Vs V _).mpr (Or.inl b1), fun w hw => ?_⟩
                rcases hcases w hw with h | h
                · exact b2 w h
                · rw [h]; exact not_lt.mp hlt
        · intro h1
          have hn : n = 0 := Nat.succ_injective h1
          obtain ⟨s1, s2⟩ := ih.start hn
          dsimp only at s1 s2 ⊢
          rw [s1, s2, if_pos hl.2, if_pos hl.1]
    · rename_i hok
      exact same fun v hv => by
        obtain ⟨h1, h2, _⟩ := (good_single b V v).mp hv
        exact hok h2

/-! ## C29 -/

/-- **C29.** Solving a fresh object from any list of complex roots (the physical ones below the start value
`1e100` of the scan):
* no physical root: an error;
* one physical root value: exactly that volume, as liquid when `PIP` exceeds one and as vapour otherwise;
  at the critical point of a pure component both phases get it;
* otherwise liquid and vapour get the smallest and the largest root (unless only one was asked for). -/
theorem C29_roots (pip : Props → ℝ) (critical : Bool) (b : ℝ) (al : Alphas) (Vs : List ℂ)
    (only_l only_g : Bool) (hlim : ∀ v, Good b Vs v → |v| < 10 ^ 100) :
    ((∀ v, ¬ Good b Vs v) → setFromPT pip critical b al Vs only_l only_g fresh = none) ∧
    (∀ v, Good b Vs v → (∀ w, Good b Vs w → w = v) →
      (critical = false → setFromPT pip critical b al Vs only_l only_g fresh
        = some (if pipLimit < pip (v, al) then ⟨some (v, al), none, some .l⟩ else ⟨none, some (v, al), some .g⟩)) ∧
      (critical = true → setFromPT pip critical b al Vs only_l only_g fresh
        = some ⟨some (v, al), some (v, al), some .lg⟩)) ∧
    (∀ v w, Good b Vs v → Good b Vs w → v ≠ w → ∃ vl vg, Least (Good b Vs) vl ∧ Greatest (Good b Vs) vg ∧
      setFromPT pip critical b al Vs only_l only_g fresh
        = some ⟨if only_g then none else some (vl, al), if only_l then none else some (vg, al), some .lg⟩) := by
  have inv := scan_inv b Vs hlim
  refine ⟨fun hno => ?_, fun v hv hu => ?_, fun v w hv hw hne => ?_⟩
  · have h0 := inv.none.mpr hno
    obtain ⟨s1, s2⟩ := inv.start h0
    unfold setFromPT
    dsimp only
    rw [h0, s1, s2]
    norm_num
  · have h0 : (scan b Vs).2.2 ≠ 0 := fun h => inv.none.mp h v hv
    obtain ⟨⟨a1, _⟩, ⟨b1, _⟩⟩ := inv.some h0
    have e1 := hu _ a1
    have e2 := hu _ b1
    have hlt := (abs_lt.mp (hlim v hv)).2
    have hstep : ∀ c, setFromPT pip c b al Vs only_l only_g fresh = (
        let s := setProps pip (v, al) false false fresh
        let e1 := { s.1 with phase := some s.2 }
        if c then
          let s2 := setProps pip (v, al) (decide (s.2 ≠ .l)) (decide (s.2 ≠ .g)) e1
          some { s2.1 with phase := some .lg }
        else some e1) := by
      intro c
      unfold setFromPT
      dsimp only
      rw [if_pos (Or.inr (e1.trans e2.symm)), e1, if_pos hlt.ne]
    constructor
    · rintro rfl
      rw [hstep]
      by_cases hp : pipLimit < pip (v, al) <;> simp [setProps, fresh, hp]
    · rintro rfl
      rw [hstep]
      by_cases hp : pipLimit < pip (v, al) <;> simp [setProps, fresh, hp]
  · have h0 : (scan b Vs).2.2 ≠ 0 := fun h => inv.none.mp h v hv
    obtain ⟨a, g⟩ := inv.some h0
    have hne' : (scan b Vs).1 ≠ (scan b Vs).2.1 := by
      intro h
      have h1 := a.2 v hv; have h2 := g.2 v hv; have h3 := a.2 w hw; have h4 := g.2 w hw
      exact hne (by linarith)
    have h1 : (scan b Vs).2.2 ≠ 1 := fun h => hne' (inv.one h)
    refine ⟨_, _, a, g, ?_⟩
    unfold setFromPT
    dsimp only
    rw [if_neg (by tauto), if_pos (by omega)]
    cases only_l <;> cases only_g <;> simp [setProps, fresh]

/-- Two physical roots, a conjugate pair being skipped, meet the hypotheses. -/
example : Good 1 [(2 : ℂ), 5, ⟨3, 1⟩] 2 ∧ Good 1 [(2 : ℂ), 5, ⟨3, 1⟩] 5 ∧ ∀ v, Good 1 [(2 : ℂ), 5, ⟨3, 1⟩] v → |v| < 10 ^ 100 := by
  refine ⟨⟨2, by simp, by simp, by simp, by norm_num⟩, ⟨5, by simp, by simp, by simp, by norm_num⟩, ?_⟩
  rintro v ⟨V, hV, rfl, _, _⟩
  simp only [List.mem_cons, List.not_mem_nil, or_false] at hV
  rcases hV with rfl | rfl | rfl <;> norm_num

/-- **C29, disagreement.** With a negative covolume (possible for strongly translated equations,
`b = b0 - c`) the zeros with which `volume_solutions_halley` pads its result count as physical roots, so a
single-root state is given a liquid of zero volume. -/
theorem C29_negative_covolume_fails (pip : Props → ℝ) (al : Alphas) :
    setFromPT pip false (-1) al [(5 : ℂ), 0, 0] false false fresh
      = some ⟨some (0, al), some (5, al), some .lg⟩ := by
  have hlim : ∀ v, Good (-1) [(5 : ℂ), 0, 0] v → |v| < 10 ^ 100 := by
    rintro v ⟨V, hV, rfl, _, _⟩
    simp only [List.mem_cons, List.not_mem_nil, or_false] at hV
    rcases hV with rfl | rfl | rfl <;> norm_num
  have g5 : Good (-1) [(5 : ℂ), 0, 0] 5 := ⟨5, by simp, by simp, by simp, by norm_num⟩
  have g0 : Good (-1) [(5 : ℂ), 0, 0] 0 := ⟨0, by simp, by simp, by simp, by norm_num⟩
  obtain ⟨vl, vg, hl, hg, h⟩ := (C29_roots pip false (-1) al _ false false hlim).2.2 5 0 g5 g0 (by norm_num)
  have mem : ∀ v, Good (-1) [(5 : ℂ), 0, 0] v → v = 5 ∨ v = 0 := by
    rintro v ⟨V, hV, rfl, _, _⟩
    simp only [List.mem_cons, List.not_mem_nil, or_false] at hV
    rcases hV with rfl | rfl | rfl <;> simp
  have e1 : vl = 0 := by
    rcases mem vl hl.1 with e | e
    · have := hl.2 0 g0; rw [e] at this; norm_num at this
    · exact e
  have e2 : vg = 5 := by
    rcases mem vg hg.1 with e | e
    · exact e
    · have := hg.2 5 g5; rw [e] at this; norm_num at this
  rw [h, e1, e2]
  simp

/-! ## C30 -/

/-- Every stored phase of the object was computed with the given attraction terms. -/
def AllWith (al : Alphas) (e : Eos) : Prop :=
  (∀ p, e.l = some p → p.2 = al) ∧ (∀ p, e.g = some p → p.2 = al)

/-- **C30 (partial).** After a solve with two roots of which only one was computed, `resolve_full_alphas`
refreshes the phase that was computed. Missing: both phases (`C30_both_fails`) and single roots, for which
see `C30_single_partial`. -/
theorem C30_one_of_two_partial (pip : Props → ℝ) (critical : Bool) (b : ℝ) (cheap full : Alphas) (Vs : List ℂ)
    (liquid : Bool) (hlim : ∀ v, Good b Vs v → |v| < 10 ^ 100) {v w : ℝ} (hv : Good b Vs v) (hw : Good b Vs w)
    (hne : v ≠ w) :
    ∃ e e', setFromPT pip critical b cheap Vs liquid (!liquid) fresh = some e ∧
      resolveFull pip critical b full Vs e = some e' ∧ AllWith full e' ∧
      (e'.l.isSome = liquid ∧ e'.g.isSome = !liquid) := by
  have inv := scan_inv b Vs hlim
  obtain ⟨vl, vg, hl, hg, h⟩ := (C29_roots pip critical b cheap Vs liquid (!liquid) hlim).2.2 v w hv hw hne
  have h0 : (scan b Vs).2.2 ≠ 0 := fun h => inv.none.mp h v hv
  obtain ⟨a, g⟩ := inv.some h0
  have hne' : (scan b Vs).1 ≠ (scan b Vs).2.1 := by
    intro h
    have h1 := a.2 v hv; have h2 := g.2 v hv; have h3 := a.2 w hw; have h4 := g.2 w hw
    exact hne (by linarith)
  have h1 : (scan b Vs).2.2 ≠ 1 := fun h => hne' (inv.one h)
  refine ⟨_, ⟨if liquid then some ((scan b Vs).1, full) else none,
    if liquid then none else some ((scan b Vs).2.1, full), some .lg⟩, h, ?_, ?_, ?_⟩
  · unfold resolveFull setFromPT
    dsimp only
    rw [if_neg (by tauto), if_pos (by omega)]
    cases liquid <;> simp [setProps]
  · cases liquid <;> simp [AllWith]
  · cases liquid <;> simp

/-- **C30, the claim fails.** When both phases were solved, `resolve_full_alphas` calls `set_from_PT` with
both `only_l` and `only_g`, so neither is recomputed: the liquid and vapour properties keep the placeholder
derivatives. -/
theorem C30_both_fails (pip : Props → ℝ) (critical : Bool) (b : ℝ) (cheap full : Alphas) (Vs : List ℂ)
    (hlim : ∀ v, Good b Vs v → |v| < 10 ^ 100) {v w : ℝ} (hv : Good b Vs v) (hw : Good b Vs w)
    (hne : v ≠ w) :
    ∃ e, setFromPT pip critical b cheap Vs false false fresh = some e ∧ e.l.isSome ∧ e.g.isSome ∧
      resolveFull pip critical b full Vs e = some e ∧ (cheap ≠ full → ¬ AllWith full e) := by
  have inv := scan_inv b Vs hlim
  obtain ⟨vl, vg, hl, hg, h⟩ := (C29_roots pip critical b cheap Vs false false hlim).2.2 v w hv hw hne
  have h0 : (scan b Vs).2.2 ≠ 0 := fun h => inv.none.mp h v hv
  obtain ⟨a, g⟩ := inv.some h0
  have hne' : (scan b Vs).1 ≠ (scan b Vs).2.1 := by
    intro h
    have h1 := a.2 v hv; have h2 := g.2 v hv; have h3 := a.2 w hw; have h4 := g.2 w hw
    exact hne (by linarith)
  have h1 : (scan b Vs).2.2 ≠ 1 := fun h => hne' (inv.one h)
  refine ⟨_, h, rfl, rfl, ?_, ?_⟩
  · unfold resolveFull setFromPT
    dsimp only
    rw [if_neg (by tauto), if_pos (by omega)]
    simp
  · intro hcf hall
    exact hcf (hall.1 _ rfl)

/-- Two roots and different attraction terms meet the hypotheses of the two theorems. -/
example (pip : Props → ℝ) := C30_both_fails pip false 1 (1, -1, 1) (1, -2, 1) [(2 : ℂ), 5]
  (by
    rintro v ⟨V, hV, rfl, _, _⟩
    simp only [List.mem_cons, List.not_mem_nil, or_false] at hV
    rcases hV with rfl | rfl <;> norm_num)
  (v := 2) (w := 5) ⟨2, by simp, by simp, by simp, by norm_num⟩ ⟨5, by simp, by simp, by simp, by norm_num⟩
  (by norm_num)

/-- **C30 (partial).** With a single physical root, away from the critical point, the root is recomputed
with the full terms; when the phase identification parameter does not change side with the terms, that is
all there is. Missing: a change of side (`C30_single_stale`). -/
theorem C30_single_partial (pip : Props → ℝ) (b : ℝ) (cheap full : Alphas) (Vs : List ℂ) (only_l only_g : Bool)
    (hlim : ∀ v, Good b Vs v → |v| < 10 ^ 100) {v : ℝ} (hv : Good b Vs v) (hu : ∀ w, Good b Vs w → w = v)
    (hside : pipLimit < pip (v, cheap) ↔ pipLimit < pip (v, full)) :
    ∃ e e', setFromPT pip false b cheap Vs only_l only_g fresh = some e ∧
      resolveFull pip false b full Vs e = some e' ∧ AllWith full e' ∧ (e'.l.isSome ∨ e'.g.isSome) := by
  have inv := scan_inv b Vs hlim
  have h := ((C29_roots pip false b cheap Vs only_l only_g hlim).2.1 v hv hu).1 rfl
  have h0 : (scan b Vs).2.2 ≠ 0 := fun h => inv.none.mp h v hv
  obtain ⟨⟨a1, _⟩, ⟨b1, _⟩⟩ := inv.some h0
  have e1 := hu _ a1
  have e2 := hu _ b1
  have hlt := (abs_lt.mp (hlim v hv)).2
  refine ⟨_, if pipLimit < pip (v, full) then ⟨some (v, full), none, some .l⟩
    else ⟨none, some (v, full), some .g⟩, h, ?_, ?_, ?_⟩
  · unfold resolveFull setFromPT
    dsimp only
    rw [if_pos (Or.inr (e1.trans e2.symm)), e1, if_pos hlt.ne]
    by_cases hp : pipLimit < pip (v, full)
    · have hp' := hside.mpr hp
      simp [setProps, hp, hp']
    · have hp' : ¬ pipLimit < pip (v, cheap) := fun h => hp (hside.mp h)
      simp [setProps, hp, hp']
  · by_cases hp : pipLimit < pip (v, full) <;> simp [hp, AllWith]
  · by_cases hp : pipLimit < pip (v, full) <;> simp [hp]

/-- One root, with a constant phase identification parameter. -/
example := C30_single_partial (fun _ => 2) 1 (1, -1, 1) (1, -2, 1) [(2 : ℂ)] false false
  (by
    rintro v ⟨V, hV, rfl, _, _⟩
    simp only [List.mem_cons, List.not_mem_nil, or_false] at hV
    rcases hV with rfl; norm_num)
  (v := 2) ⟨2, by simp, by simp, by simp, by norm_num⟩
  (by
    rintro w ⟨V, hV, rfl, _, _⟩
    simp only [List.mem_cons, List.not_mem_nil, or_false] at hV
    rcases hV with rfl; simp)
  Iff.rfl

/-- The phase identification parameter by its formula (338-345, 1437-1448) with van der Waals-like
parameters `δ = ε = 0` and `R = 1`. -/
noncomputable def pipVdW (T b : ℝ) (p : Props) : ℝ :=
  let V := p.1
  let a := p.2.1
  let da := p.2.2.1
  let x0 := 1 / (V - b)
  let x1 := 1 / (V * V)
  let dP_dT := x0 - da * x1
  let dP_dV := 2 * V * (a * (x1 * x1)) - T * (x0 * x0)
  let d2P_dV2 := 2 * (a * (x1 * x1) + T * (x0 * x0) * x0 - a * (2 * V) * (2 * V * (x1 * x1)) * x1)
  let d2P_dTdV := da * (2 * V * (x1 * x1)) - x0 * x0
  V * (d2P_dTdV * (1 / dP_dT) - d2P_dV2 * (1 / dP_dV))

/-- **C30, disagreement.** With a single root the phase identification parameter, and with it the phase, is
recomputed from the true derivative of the attraction term. When it changes side, the object keeps the
attributes of the phase found with the placeholder derivative beside the new ones. Here `V = 5`, `b = 1`,
`T = 1`, `a = 1`: with `da/dT = 0` the state is a liquid, with `da/dT = -1` a vapour. -/
theorem C30_single_stale :
    ∃ e e', setFromPT (pipVdW 1 1) false 1 (1, 0, 0) [(5 : ℂ)] false false fresh = some e ∧
      resolveFull (pipVdW 1 1) false 1 (1, -1, 0) [(5 : ℂ)] e = some e' ∧
      ¬ AllWith (1, -1, 0) e' := by
  have hlim : ∀ v, Good 1 [(5 : ℂ)] v → |v| < 10 ^ 100 := by
    rintro v ⟨V, hV, rfl, _, _⟩
    simp only [List.mem_cons, List.not_mem_nil, or_false] at hV
    rcases hV with rfl; norm_num
  have hv : Good 1 [(5 : ℂ)] 5 := ⟨5, by simp, by simp, by simp, by norm_num⟩
  have hu : ∀ w, Good 1 [(5 : ℂ)] w → w = 5 := by
    rintro w ⟨V, hV, rfl, _, _⟩
    simp only [List.mem_cons, List.not_mem_nil, or_false] at hV
    rcases hV with rfl; simp
  have p1 : pipLimit < pipVdW 1 1 (5, 1, 0, 0) := by norm_num [pipVdW, pipLimit]
  have p2 : ¬ pipLimit < pipVdW 1 1 (5, 1, -1, 0) := by norm_num [pipVdW, pipLimit]
  have h := ((C29_roots (pipVdW 1 1) false 1 (1, 0, 0) [(5 : ℂ)] false false hlim).2.1 5 hv hu).1 rfl
  rw [if_pos p1] at h
  have inv := scan_inv 1 [(5 : ℂ)] hlim
  have h0 : (scan 1 [(5 : ℂ)]).2.2 ≠ 0 := fun h => inv.none.mp h 5 hv
  obtain ⟨⟨a1, _⟩, ⟨b1, _⟩⟩ := inv.some h0
  have e1 := hu _ a1
  have e2 := hu _ b1
  refine ⟨_, ⟨some (5, 1, 0, 0), some (5, 1, -1, 0), some .g⟩, h, ?_, ?_⟩
  · unfold resolveFull setFromPT
    dsimp only
    rw [if_pos (Or.inr (e1.trans e2.symm)), e1, if_pos (show (5 : ℝ) ≠ 10 ^ 100 by norm_num)]
    simp [setProps, p2]
  · intro hall
    have := hall.1 _ rfl
    simp at this

/-- **C30.** `solve_missing_volumes` on an object solved for one phase of a two-root state computes the
missing phase with the same terms and keeps the other. -/
theorem C30_solve_missing (pip : Props → ℝ) (critical : Bool) (b : ℝ) (al : Alphas) (Vs : List ℂ)
    (liquid : Bool) (hlim : ∀ v, Good b Vs v → |v| < 10 ^ 100) {v w : ℝ} (hv : Good b Vs v) (hw : Good b Vs w)
    (hne : v ≠ w) :
    ∃ e, setFromPT pip critical b al Vs liquid (!liquid) fresh = some e ∧
      ∃ vl vg, Least (Good b Vs) vl ∧ Greatest (Good b Vs) vg ∧
        solveMissing pip critical b al Vs e = some ⟨some (vl, al), some (vg, al), some .lg⟩ := by
  have inv := scan_inv b Vs hlim
  obtain ⟨vl, vg, hl, hg, h⟩ := (C29_roots pip critical b al Vs liquid (!liquid) hlim).2.2 v w hv hw hne
  have h0 : (scan b Vs).2.2 ≠ 0 := fun h => inv.none.mp h v hv
  obtain ⟨a, g⟩ := inv.some h0
  have hne' : (scan b Vs).1 ≠ (scan b Vs).2.1 := by
    intro h
    have h1 := a.2 v hv; have h2 := g.2 v hv; have h3 := a.2 w hw; have h4 := g.2 w hw
    exact hne (by linarith)
  have h1 : (scan b Vs).2.2 ≠ 1 := fun h => hne' (inv.one h)
  have el : vl = (scan b Vs).1 := le_antisymm (hl.2 _ a.1) (a.2 _ hl.1)
  have eg : vg = (scan b Vs).2.1 := le_antisymm (g.2 _ hg.1) (hg.2 _ g.1)
  refine ⟨_, h, vl, vg, hl, hg, ?_⟩
  have key : ∀ ol og e, setFromPT pip critical b al Vs ol og e = some
      { (if ol then (if og then e else (setProps pip (vl, al) true false e).1)
          else (setProps pip (vg, al) false true (if og then e else (setProps pip (vl, al) true false e).1)).1)
        with phase := some .lg } := by
    intro ol og e
    unfold setFromPT
    dsimp only
    rw [if_neg (by tauto), if_pos (by omega), el, eg]
  unfold solveMissing
  cases liquid <;> simp [key, setProps]

example (pip : Props → ℝ) := C30_solve_missing pip false 1 (1, -1, 1) [(2 : ℂ), 5] true
  (by
    rintro v ⟨V, hV, rfl, _, _⟩
    simp only [List.mem_cons, List.not_mem_nil, or_false] at hV
    rcases hV with rfl | rfl <;> norm_num)
  (v := 2) (w := 5) ⟨2, by simp, by simp, by simp, by norm_num⟩ ⟨5, by simp, by simp, by simp, by norm_num⟩
  (by norm_num)

end Verif.RootSelect
