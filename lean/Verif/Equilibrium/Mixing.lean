import Verif.Equilibrium.State
import Mathlib.Analysis.MeanInequalities

/-!
# Mixing rules for the transport properties of several phases (`thermo/bulk.py` 748-950)

* C71: the mixing rules give values between those of the phases.

Python exceptions are values of `Except`. `mu` stands for any of the properties `mu`, `k`, `sigma`, which have the
same rules.
-/

namespace Verif.Equil

/-- Exceptions which the rules can raise. -/
inductive MixErr | unknownMethod | mathDomain | complexPower | zeroDivision | noExponent | emptyMin | indexError
  deriving DecidableEq

/-- Which fractions weight the phases (bulk.py 202-204). -/
inductive Basis | mole | mass | volume
/-- How the property enters (bulk.py 206-208). -/
inductive Form | linear | log | power

/-- The setting strings (bulk.py 96-109, 152-153). `other` is any string which is not one of these. -/
inductive Method
  | weighted (basis : Basis) (form : Form)
  | minimum
  | maximum
  | asOneLiquid
  | asOneGas
  | other

/-- `min(props)` and `max(props)` -/
noncomputable def listMin : List ℝ → Except MixErr ℝ
  | [] => .error .emptyMin
  | x :: l => .ok (l.foldl min x)
@[inherit_doc listMin]
noncomputable def listMax : List ℝ → Except MixErr ℝ
  | [] => .error .emptyMin
  | x :: l => .ok (l.foldl max x)

/-- The three loops over weights and property values (bulk.py 761-771). A logarithm of a non-positive number
raises `ValueError`, a power of a negative number is complex. -/
noncomputable def mixForm (form : Form) (exponent : Option ℝ) (xs : List (ℝ × ℝ)) : Except MixErr ℝ :=
  match form with
  | .linear => .ok (xs.map fun x => x.1 * x.2).sum
  | .power =>
    match exponent with
    | none => .error .noExponent
    | some e =>
      if ∃ x ∈ xs, x.2 < 0 then .error .complexPower
      else if e < 0 ∧ ∃ x ∈ xs, x.2 = 0 then .error .zeroDivision
      else if e = 0 then .error .zeroDivision
      else .ok ((xs.map fun x => x.1 * x.2 ^ e).sum ^ (1 / e))
  | .log =>
    if ∃ x ∈ xs, x.2 ≤ 0 then .error .mathDomain
    else .ok (Real.exp (xs.map fun x => x.1 * Real.log x.2).sum)

/-- `_property_mixing_rule` (bulk.py 748-778). `weights` gives `phase_fractions`, `betas_mass` and `betas_volume`
of the bulk; `one` is the value of the mixture object. -/
noncomputable def propertyMixingRule (method : Method) (exponent : Option ℝ) (one : ℝ) (weights : Basis → List ℝ)
    (props : List ℝ) : Except MixErr ℝ :=
  match method with
  | .asOneLiquid => .ok one
  | .weighted b f => mixForm f exponent ((weights b).zip props)
  | .minimum => listMin props
  | .maximum => listMax props
  | _ => .error .unknownMethod

/-- `_mu_k_VL` (bulk.py 780-802), with `VF`, `betas_mass_states[:2]` and `betas_volume_states[:2]`. -/
noncomputable def muKVL (method : Method) (exponent : Option ℝ) (VF : ℝ) (mass volume : List ℝ) (pg pl : ℝ) :
    Except MixErr ℝ :=
  match method with
  | .weighted b f =>
    let betas := match b with
      | .mole => [VF, 1 - VF]
      | .mass => mass.take 2
      | .volume => volume.take 2
    mixForm f exponent (betas.zip [pg, pl])
  | .minimum => listMin [pg, pl]
  | .maximum => listMax [pg, pl]
  | _ => .error .unknownMethod

/-- The values of `mu_LL`, `k_LL`, `sigma_LL` which `BulkSettings.__init__` accepts (bulk.py 155-171, 520-543). -/
def allowedLL : Method → Prop
  | .asOneGas | .other => False
  | _ => True
/-- The values of `k_VL` which it accepts, and of `mu_VL` apart from the correlations (bulk.py 185-191). -/
def allowedVL : Method → Prop
  | .other => False
  | _ => True

/-- `fluids.two_phase_voidage.McAdams` (documented formula), the default for `mu_VL`. -/
noncomputable def McAdams (x mul mug : ℝ) : ℝ := 1 / (x / mug + (1 - x) / mul)
/-- `fluids.two_phase_voidage.Cicchitti` (documented formula). -/
noncomputable def Cicchitti (x mul mug : ℝ) : ℝ := x * mug + (1 - x) * mul

/-- The setting `mu_VL` or `k_VL`. -/
inductive VLMethod
  | mcAdams
  | cicchitti
  | rule (m : Method)

/-- The fractions by which the overall bulk weights its phases (bulk.py 664-714 for the bulk of all phases). -/
noncomputable def ES.weights {N : ℕ} (e : ES N) : Basis → List ℝ
  | .mole => e.betas
  | .mass => e.betasMass
  | .volume => e.betasVolume

/-- The fractions of the `Bulk` object of two or more liquids. -/
noncomputable def ES.liquidWeights {N : ℕ} (e : ES N) : Basis → List ℝ
  | .mole => e.liquidsBetas
  | .mass => ES.weightFractions e.MW e.liquidsBetas e.liquids
  | .volume => ES.weightFractions (fun p => p.V) e.liquidsBetas e.liquids

/-- The property of the liquid bulk (bulk.py 826-834 with `phase_bulk == 'l'`). -/
noncomputable def ES.muLiquidBulk {N : ℕ} (e : ES N) (mu : EPh N → ℝ) (LL : Method) (expLL : Option ℝ) (one : ℝ) :
    Except MixErr ℝ :=
  match e.liquids with
  | [] => .error .indexError
  | [l] => .ok (mu l)
  | _ => propertyMixingRule LL expLL one e.liquidWeights (e.liquids.map mu)

/-- `mu` of the overall bulk (bulk.py 805-862; `k` 864-912 has the same structure without correlations).
`oneL` and `oneG` are the values of the mixture objects for the settings `AS_ONE_LIQUID` and `AS_ONE_GAS`. -/
noncomputable def ES.muBulk {N : ℕ} (e : ES N) (mu : EPh N → ℝ) (LL : Method) (expLL : Option ℝ) (VL : VLMethod)
    (expVL : Option ℝ) (oneL oneG : ℝ) : Except MixErr ℝ :=
  match e.phases, e.gas with
  | [p], _ => .ok (mu p)
  | _, none => propertyMixingRule LL expLL oneL e.weights (e.phases.map mu)
  | _, some g =>
    match VL with
    | .rule .asOneLiquid => .ok oneL
    | .rule .asOneGas => .ok oneG
    | _ =>
      let mul := if e.phases.length = 2 then
          match e.liquids with
          | [] => .error .indexError
          | l :: _ => .ok (mu l)
        else e.muLiquidBulk mu LL expLL oneL
      match mul, VL with
      | .error err, _ => .error err
      | .ok mul, .mcAdams => .ok (McAdams (e.betasMass.headD 0) mul (mu g))
      | .ok mul, .cicchitti => .ok (Cicchitti (e.betasMass.headD 0) mul (mu g))
      | .ok mul, .rule m => muKVL m expVL e.VF e.betasMassStates e.betasVolumeStates (mu g) mul

/-! ## Specification -/

/-- The result is a value between `a` and `b`. -/
def Between (r : Except MixErr ℝ) (a b : ℝ) : Prop := ∃ v, r = .ok v ∧ a ≤ v ∧ v ≤ b

/-- A method with which positive properties can be mixed: for a power, there is a non-zero exponent. -/
def Method.usable : Method → Option ℝ → Prop
  | .weighted _ .power, e => ∃ x, e = some x ∧ x ≠ 0
  | _, _ => True

/-! ## Lemmas -/

theorem sum_between {xs : List (ℝ × ℝ)} {a b : ℝ} (h0 : ∀ x ∈ xs, 0 ≤ x.1) (h1 : (xs.map Prod.fst).sum = 1)
    (h : ∀ x ∈ xs, a ≤ x.2 ∧ x.2 ≤ b) :
    a ≤ (xs.map fun x => x.1 * x.2).sum ∧ (xs.map fun x => x.1 * x.2).sum ≤ b := by
  have key : ∀ l : List (ℝ × ℝ), (∀ x ∈ l, 0 ≤ x.1) → (∀ x ∈ l, a ≤ x.2 ∧ x.2 ≤ b) →
      a * (l.map Prod.fst).sum ≤ (l.map fun x => x.1 * x.2).sum ∧
      (l.map fun x => x.1 * x.2).sum ≤ b * (l.map Prod.fst).sum := by
    intro l
    induction l with
    | nil => simp
    | cons x l ih =>
      intro h0 h
      have hx := h x (by simp)
      have hx0 := h0 x (by simp)
      have ih := ih (fun y hy => h0 y (by simp [hy])) (fun y hy => h y (by simp [hy]))
      simp only [List.map_cons, List.sum_cons]
      constructor
      · nlinarith [mul_le_mul_of_nonneg_left hx.1 hx0]
      · nlinarith [mul_le_mul_of_nonneg_left hx.2 hx0]
  have := key xs h0 h
  rw [h1] at this
  simpa using this

theorem foldl_min_mem (l : List ℝ) (x : ℝ) :
    l.foldl min x ∈ x :: l ∧ ∀ y ∈ x :: l, l.foldl min x ≤ y := by
  induction l generalizing x with
  | nil => simp
  | cons a l ih =>
    simp only [List.foldl_cons]
    have := ih (min x a)
    constructor
    · have h1 := this.1
      rw [List.mem_cons] at h1
      rcases h1 with h1 | h1
      · rcases min_choice x a with h2 | h2 <;> rw [h1, h2] <;> simp
      · simp [h1]
    · intro y hy
      have h3 := this.2 (min x a) (by simp)
      simp only [List.mem_cons] at hy
      rcases hy with rfl | rfl | hy
      · exact h3.trans (min_le_left _ _)
      · exact h3.trans (min_le_right _ _)
      · exact this.2 y (by simp [hy])

theorem foldl_max_mem (l : List ℝ) (x : ℝ) :
    l.foldl max x ∈ x :: l ∧ ∀ y ∈ x :: l, y ≤ l.foldl max x := by
  induction l generalizing x with
  | nil => simp
  | cons a l ih =>
    simp only [List.foldl_cons]
    have := ih (max x a)
    constructor
    · have h1 := this.1
      rw [List.mem_cons] at h1
      rcases h1 with h1 | h1
      · rcases max_choice x a with h2 | h2 <;> rw [h1, h2] <;> simp
      · simp [h1]
    · intro y hy
      have h3 := this.2 (max x a) (by simp)
      simp only [List.mem_cons] at hy
      rcases hy with rfl | rfl | hy
      · exact (le_max_left _ _).trans h3
      · exact (le_max_right _ _).trans h3
      · exact this.2 y (by simp [hy])

theorem listMin_between {l : List ℝ} {a b : ℝ} (hne : l ≠ []) (h : ∀ x ∈ l, a ≤ x ∧ x ≤ b) :
    Between (listMin l) a b := by
  cases l with
  | nil => exact absurd rfl hne
  | cons x l => exact ⟨_, rfl, h _ (foldl_min_mem l x).1⟩

theorem listMax_between {l : List ℝ} {a b : ℝ} (hne : l ≠ []) (h : ∀ x ∈ l, a ≤ x ∧ x ≤ b) :
    Between (listMax l) a b := by
  cases l with
  | nil => exact absurd rfl hne
  | cons x l => exact ⟨_, rfl, h _ (foldl_max_mem l x).1⟩

theorem mixForm_between {xs : List (ℝ × ℝ)} {a b : ℝ} (ha : 0 < a) (h0 : ∀ x ∈ xs, 0 ≤ x.1)
    (h1 : (xs.map Prod.fst).sum = 1) (h : ∀ x ∈ xs, a ≤ x.2 ∧ x.2 ≤ b) (form : Form) (e : Option ℝ)
    (he : form = .power → ∃ x, e = some x ∧ x ≠ 0) : Between (mixForm form e xs) a b := by
  have hpos : ∀ x ∈ xs, 0 < x.2 := fun x hx => ha.trans_le (h x hx).1
  have hb : 0 < b := by
    cases xs with
    | nil => simp at h1
    | cons x l => exact (hpos x (by simp)).trans_le (h x (by simp)).2
  cases form with
  | linear => exact ⟨_, rfl, sum_between h0 h1 h⟩
  | log =>
    have hn : ¬ ∃ x ∈ xs, x.2 ≤ 0 := fun ⟨x, hx, h2⟩ => absurd (hpos x hx) (not_lt.mpr h2)
    refine ⟨_, by rw [mixForm]; exact if_neg hn, ?_⟩
    have := sum_between (xs := xs.map fun x => (x.1, Real.log x.2)) (a := Real.log a) (b := Real.log b)
      (by
        intro y hy
        obtain ⟨x, hx, rfl⟩ := List.mem_map.mp hy
        exact h0 x hx) (by simpa [List.map_map, Function.comp_def] using h1) (by
        intro y hy
        obtain ⟨x, hx, rfl⟩ := List.mem_map.mp hy
        exact ⟨Real.log_le_log ha (h x hx).1, Real.log_le_log (hpos x hx) (h x hx).2⟩)
    simp only [List.map_map, Function.comp_def] at this
    constructor
    · rw [← Real.exp_log ha]; exact Real.exp_le_exp.mpr this.1
    · rw [← Real.exp_log hb]; exact Real.exp_le_exp.mpr this.2
  | power =>
    obtain ⟨p, rfl, hp⟩ := he rfl
    have hn1 : ¬ ∃ x ∈ xs, x.2 < 0 := fun ⟨x, hx, h2⟩ => absurd (hpos x hx) (not_lt.mpr h2.le)
    have hn2 : ¬ (p < 0 ∧ ∃ x ∈ xs, x.2 = 0) := fun ⟨_, x, hx, h2⟩ => (hpos x hx).ne' h2
    refine ⟨_, by simp only [mixForm]; rw [if_neg hn1, if_neg hn2, if_neg hp], ?_⟩
    rcases lt_or_gt_of_ne hp with hp | hp
    · have := sum_between (xs := xs.map fun x => (x.1, x.2 ^ p)) (a := b ^ p) (b := a ^ p)
        (by
        intro y hy
        obtain ⟨x, hx, rfl⟩ := List.mem_map.mp hy
        exact h0 x hx) (by simpa [List.map_map, Function.comp_def] using h1) (by
          intro y hy
          obtain ⟨x, hx, rfl⟩ := List.mem_map.mp hy
          exact ⟨Real.rpow_le_rpow_of_nonpos (hpos x hx) (h x hx).2 hp.le,
            Real.rpow_le_rpow_of_nonpos ha (h x hx).1 hp.le⟩)
      simp only [List.map_map, Function.comp_def] at this
      have hs : 0 < (xs.map fun x => x.1 * x.2 ^ p).sum := (Real.rpow_pos_of_pos hb p).trans_le this.1
      have hq : 1 / p ≤ 0 := (one_div_neg.mpr hp).le
      have hr : ∀ y : ℝ, 0 < y → (y ^ p) ^ (1 / p) = y := fun y hy => by
        rw [← Real.rpow_mul hy.le, mul_one_div_cancel hp.ne, Real.rpow_one]
      constructor
      · have := Real.rpow_le_rpow_of_nonpos hs this.2 hq
        rwa [hr a ha] at this
      · have := Real.rpow_le_rpow_of_nonpos (Real.rpow_pos_of_pos hb p) this.1 hq
        rwa [hr b hb] at this
    · have := sum_between (xs := xs.map fun x => (x.1, x.2 ^ p)) (a := a ^ p) (b := b ^ p)
        (by
        intro y hy
        obtain ⟨x, hx, rfl⟩ := List.mem_map.mp hy
        exact h0 x hx) (by simpa [List.map_map, Function.comp_def] using h1) (by
          intro y hy
          obtain ⟨x, hx, rfl⟩ := List.mem_map.mp hy
          exact ⟨Real.rpow_le_rpow ha.le (h x hx).1 hp.le, Real.rpow_le_rpow (hpos x hx).le (h x hx).2 hp.le⟩)
      simp only [List.map_map, Function.comp_def] at this
      have hs : 0 < (xs.map fun x => x.1 * x.2 ^ p).sum := (Real.rpow_pos_of_pos ha p).trans_le this.1
      have hq : 0 ≤ 1 / p := (one_div_pos.mpr hp).le
      have hr : ∀ y : ℝ, 0 < y → (y ^ p) ^ (1 / p) = y := fun y hy => by
        rw [← Real.rpow_mul hy.le, mul_one_div_cancel hp.ne', Real.rpow_one]
      constructor
      · have := Real.rpow_le_rpow (Real.rpow_pos_of_pos ha p).le this.1 hq
        rwa [hr a ha] at this
      · have := Real.rpow_le_rpow hs.le this.2 hq
        rwa [hr b hb] at this

theorem map_fst_zip {ws ps : List ℝ} (h : ws.length = ps.length) : (ws.zip ps).map Prod.fst = ws := by
  induction ws generalizing ps with
  | nil => simp
  | cons w ws ih =>
    cases ps with
    | nil => simp at h
    | cons p ps => simp [ih (by simpa using h)]

/-! ## C71: mixing rules -/

/-- **C71.** With non-negative weights which sum to one (one per phase), every accepted method for mixing a
positive property gives a value between any bounds on the property of the phases; with one exception, the value
for `AS_ONE_LIQUID`, which is computed by the mixture object. No accepted method is unknown to the rule. -/
theorem C71_bounds {ws : Basis → List ℝ} {props : List ℝ} {a b : ℝ} {m : Method} {e : Option ℝ} {one : ℝ}
    (ha : 0 < a) (hne : props ≠ []) (hp : ∀ x ∈ props, a ≤ x ∧ x ≤ b)
    (hw : ∀ k, (ws k).length = props.length ∧ (∀ w ∈ ws k, 0 ≤ w) ∧ (ws k).sum = 1)
    (hm : allowedLL m) (hu : m.usable e) :
    (m = .asOneLiquid ∧ propertyMixingRule m e one ws props = .ok one) ∨
    Between (propertyMixingRule m e one ws props) a b := by
  cases m with
  | asOneLiquid => exact Or.inl ⟨rfl, rfl⟩
  | asOneGas => exact hm.elim
  | other => exact hm.elim
  | minimum => exact Or.inr (listMin_between hne hp)
  | maximum => exact Or.inr (listMax_between hne hp)
  | weighted k f =>
    refine Or.inr (mixForm_between ha ?_ ?_ ?_ f e ?_)
    · intro x hx
      obtain ⟨x1, x2⟩ := x
      exact (hw k).2.1 _ (List.of_mem_zip hx).1
    · rw [map_fst_zip (hw k).1]; exact (hw k).2.2
    · intro x hx
      obtain ⟨x1, x2⟩ := x
      exact hp _ (List.of_mem_zip hx).2
    · rintro rfl
      exact hu

/-- The weights of the overall bulk of a consistent state. -/
theorem ES.weights_ok {N : ℕ} {e : ES N} (h : e.Ok) (k : Basis) :
    (e.weights k).length = e.phases.length ∧ (∀ w ∈ e.weights k, 0 ≤ w) ∧ (e.weights k).sum = 1 := by
  have key : ∀ w : EPh N → ℝ, (∀ p ∈ e.phases, 0 < w p) →
      (ES.weightFractions w e.betas e.phases).length = e.phases.length ∧
      (∀ x ∈ ES.weightFractions w e.betas e.phases, 0 ≤ x) ∧ (ES.weightFractions w e.betas e.phases).sum = 1 := by
    intro w hw
    obtain ⟨h1, h2, h3⟩ := weightFractions_spec h hw
    refine ⟨?_, ?_, h2⟩
    · rw [h1, List.length_map, List.length_zip, h.length, Nat.min_self]
    · rw [h1]
      intro x hx
      obtain ⟨y, hy, rfl⟩ := List.mem_map.mp hx
      have := mem_zip_pos h hy
      exact div_nonneg (mul_nonneg this.1.le (hw _ this.2).le) h3.le
  cases k with
  | mole => exact ⟨h.length, fun w hw => (h.pos w hw).le, h.sum⟩
  | mass => exact key _ fun p hp => mixSum_pos (h.comp_nonneg p hp) (h.comp_sum p hp) h.MW_pos
  | volume => exact key _ h.V_pos

/-- **C71.** A state without gas: the property of the overall bulk lies between bounds on that of the phases, for
every accepted setting except `AS_ONE_LIQUID`. -/
theorem C71_no_gas {N : ℕ} {e : ES N} (h : e.Ok) (hg : e.gas = none) {mu : EPh N → ℝ} {a b : ℝ} (ha : 0 < a)
    (hmu : ∀ p ∈ e.phases, a ≤ mu p ∧ mu p ≤ b) {LL : Method} {eL eV : Option ℝ} {VL : VLMethod} {oneL oneG : ℝ}
    (hm : allowedLL LL) (hu : LL.usable eL) (h1 : LL ≠ .asOneLiquid) :
    Between (e.muBulk mu LL eL VL eV oneL oneG) a b := by
  have hr : Between (propertyMixingRule LL eL oneL e.weights (e.phases.map mu)) a b := by
    have hne : e.phases ≠ [] := by
      intro h0
      have := h.ne_nil
      rw [h0] at this
      simp at this
    rcases C71_bounds (ws := e.weights) (props := e.phases.map mu) (a := a) (b := b) (m := LL) (e := eL)
      (one := oneL) ha (by simpa using hne) (by
        intro x hx
        obtain ⟨p, hp, rfl⟩ := List.mem_map.mp hx
        exact hmu p hp) (by simpa using e.weights_ok h) hm hu with h2 | h2
    · exact absurd h2.1 h1
    · exact h2
  rw [ES.muBulk, hg]
  cases hq : e.phases with
  | nil => rw [hq] at hr; exact hr
  | cons p t =>
    cases t with
    | nil => exact ⟨_, rfl, hmu p (by rw [hq]; simp)⟩
    | cons q t => rw [hq] at hr; exact hr

/-- **C71.** The default correlation for gas and liquid viscosity (McAdams) and the one of Cicchitti give a value
between the two viscosities for every quality between zero and one, and Cicchitti's is never the smaller one. -/
theorem C71_correlations {x mul mug a b : ℝ} (h0 : 0 ≤ x) (h1 : x ≤ 1) (ha : 0 < a) (hl : a ≤ mul ∧ mul ≤ b)
    (hg : a ≤ mug ∧ mug ≤ b) :
    a ≤ McAdams x mul mug ∧ McAdams x mul mug ≤ Cicchitti x mul mug ∧ Cicchitti x mul mug ≤ b := by
  have hlp : 0 < mul := ha.trans_le hl.1
  have hgp : 0 < mug := ha.trans_le hg.1
  have hs : 0 < x / mug + (1 - x) / mul := by
    rcases h0.lt_or_eq with h | h
    · have : 0 ≤ (1 - x) / mul := div_nonneg (by linarith) hlp.le
      have := div_pos h hgp
      linarith
    · rw [← h]
      simpa using hlp
  refine ⟨?_, ?_, ?_⟩
  · rw [McAdams, le_div_iff₀ hs]
    have k1 : a * (x / mug) ≤ x := by
      rw [← mul_div_assoc, div_le_iff₀ hgp]
      nlinarith [hg.1]
    have k2 : a * ((1 - x) / mul) ≤ 1 - x := by
      rw [← mul_div_assoc, div_le_iff₀ hlp]
      nlinarith [hl.1]
    linarith [mul_add a (x / mug) ((1 - x) / mul)]
  · rw [McAdams, Cicchitti, div_le_iff₀ hs]
    have e : (x * mug + (1 - x) * mul) * (x / mug + (1 - x) / mul)
        = 1 + x * (1 - x) * (mug - mul) ^ 2 / (mug * mul) := by
      field_simp
      ring
    rw [e]
    have : 0 ≤ x * (1 - x) * (mug - mul) ^ 2 / (mug * mul) := by
      have : 0 ≤ 1 - x := by linarith
      positivity
    linarith
  · rw [Cicchitti]
    nlinarith [hg.2, hl.2]

/-- **C71.** Gas and one or more liquids, no solids, one liquid or any mixing rule for the liquids: every accepted
setting for gas and liquid other than the two which treat everything as one phase gives a value between bounds on
the property of the phases (partial: the property of two or more liquids is assumed to be within the bounds, which
the mole-weighted rules of the liquid bulk do not guarantee, see `C71_liquid_bulk_fails`; correlations other than
those of McAdams and Cicchitti are not modelled). -/
theorem C71_gas_liquid_partial {N : ℕ} {e : ES N} (h : e.Ok) {g : EPh N} (hg : e.gas = some g)
    (hs : e.solids = []) (hl : e.liquids ≠ []) {mu : EPh N → ℝ} {a b : ℝ} (ha : 0 < a)
    (hmu : ∀ p ∈ e.phases, a ≤ mu p ∧ mu p ≤ b) {LL : Method} {eL eV : Option ℝ} {VL : VLMethod} {oneL oneG : ℝ}
    (hliq : 1 < e.liquids.length → Between (e.muLiquidBulk mu LL eL oneL) a b)
    (hVL : match VL with
      | .rule m => allowedVL m ∧ m.usable eV ∧ m ≠ .asOneLiquid ∧ m ≠ .asOneGas
      | _ => True) :
    Between (e.muBulk mu LL eL VL eV oneL oneG) a b := by
  have hgm : g ∈ e.phases := by rw [ES.phases, hg]; simp
  have hlen : e.phases.length = 1 + e.liquids.length := by
    rw [ES.phases, hg, hs]; simp; omega
  have hlp : 0 < e.liquids.length := List.length_pos_iff.mpr hl
  -- the liquid viscosity
  have hmul : ∃ v, (if e.phases.length = 2 then
          (match e.liquids with
          | [] => Except.error MixErr.indexError
          | l :: _ => .ok (mu l))
        else e.muLiquidBulk mu LL eL oneL) = .ok v ∧ a ≤ v ∧ v ≤ b := by
    by_cases h2 : e.phases.length = 2
    · rw [if_pos h2]
      cases hq : e.liquids with
      | nil => exact absurd hq hl
      | cons l t =>
        refine ⟨mu l, rfl, hmu l ?_⟩
        rw [ES.phases, hg, hq]; simp
    · rw [if_neg h2]
      exact hliq (by omega)
  obtain ⟨v, hv, hva, hvb⟩ := hmul
  have hx : 0 ≤ e.betasMass.headD 0 ∧ e.betasMass.headD 0 ≤ 1 := by
    obtain ⟨w1, w2, w3⟩ := e.weights_ok h .mass
    change e.betasMass.length = _ at w1
    change ∀ w ∈ e.betasMass, _ at w2
    change e.betasMass.sum = 1 at w3
    cases hb : e.betasMass with
    | nil => rw [hb] at w3; simp at w3
    | cons x l =>
      rw [hb] at w2 w3
      simp only [List.headD_cons, List.sum_cons] at *
      have : 0 ≤ l.sum := List.sum_nonneg fun y hy => w2 y (by simp [hy])
      exact ⟨w2 x (by simp), by linarith⟩
  have hns : ∀ w : EPh N → ℝ, (∀ p ∈ e.phases, 0 < w p) → ∃ s t : ℝ, e.weightStates w = [s, t, 0] ∧
      0 ≤ s ∧ 0 ≤ t ∧ s + t = 1 := by
    intro w hw
    have hst := weightStates_spec h hw
    have hp := (weightFractions_spec h hw).2.2
    have hgb : 0 ≤ e.gasBeta := by
      rw [ES.gasBeta]
      split
      · exact le_rfl
      · cases hb : e.betas with
        | nil => simp
        | cons x l => exact (h.pos x (by rw [hb]; simp)).le
    have h3 := hst.2
    rw [hst.1] at h3 ⊢
    simp only [hs, List.zip_nil_right, wsum_nil, zero_div, List.sum_cons, List.sum_nil, add_zero] at h3 ⊢
    refine ⟨_, _, rfl, ?_, ?_, h3⟩
    · rw [hg]
      simp only [wsum_cons, wsum_nil, add_zero]
      exact div_nonneg (mul_nonneg hgb (hw g hgm).le) hp.le
    · exact div_nonneg (wsum_nonneg fun x hx => ⟨(liquids_mem h hx).1, (hw _ (liquids_mem h hx).2).le⟩) hp.le
  have hcorr := C71_correlations hx.1 hx.2 ha ⟨hva, hvb⟩ (hmu g hgm)
  have hVF : 0 ≤ e.VF ∧ e.VF ≤ 1 := by
    have hst := C69_states h
    have h5 : 0 ≤ e.VF := by
      rw [ES.VF, hg]
      simp only [Option.isSome_some, if_true]
      cases hb : e.betas with
      | nil => simp
      | cons x l => exact (h.pos x (by rw [hb]; simp)).le
    have h6 := LF_pos h hl
    have h7 := hst.1
    rw [hst.2.1] at h7
    have h8 : e.solidsBetas = [] := List.length_eq_zero_iff.mp (by rw [hst.2.2.2.1, hs]; rfl)
    have h9 := hst.2.1
    rw [ES.betasStates, h8] at h9
    simp only [List.sum_nil, List.cons.injEq, and_true] at h9
    exact ⟨h5, by linarith [h9.2.2]⟩
  have main : Between (match VL with
      | .mcAdams => .ok (McAdams (e.betasMass.headD 0) v (mu g))
      | .cicchitti => .ok (Cicchitti (e.betasMass.headD 0) v (mu g))
      | .rule m => muKVL m eV e.VF e.betasMassStates e.betasVolumeStates (mu g) v) a b := by
    cases VL with
    | mcAdams => exact ⟨_, rfl, hcorr.1, hcorr.2.1.trans hcorr.2.2⟩
    | cicchitti => exact ⟨_, rfl, hcorr.1.trans hcorr.2.1, hcorr.2.2⟩
    | rule m =>
      obtain ⟨hm, hu, hn1, hn2⟩ := hVL
      cases m with
      | other => exact hm.elim
      | asOneLiquid => exact absurd rfl hn1
      | asOneGas => exact absurd rfl hn2
      | minimum =>
        refine listMin_between (l := [mu g, v]) (by simp) ?_
        simp only [List.mem_cons, List.not_mem_nil, or_false]
        rintro x (rfl | rfl)
        · exact hmu g hgm
        · exact ⟨hva, hvb⟩
      | maximum =>
        refine listMax_between (l := [mu g, v]) (by simp) ?_
        simp only [List.mem_cons, List.not_mem_nil, or_false]
        rintro x (rfl | rfl)
        · exact hmu g hgm
        · exact ⟨hva, hvb⟩
      | weighted k f =>
        have two : ∀ s t : ℝ, 0 ≤ s → 0 ≤ t → s + t = 1 →
            Between (mixForm f eV [(s, mu g), (t, v)]) a b := by
          intro s t hs0 ht0 hst
          refine mixForm_between ha ?_ ?_ ?_ f eV ?_
          · simp only [List.mem_cons, List.not_mem_nil, or_false]
            rintro x (rfl | rfl)
            · exact hs0
            · exact ht0
          · simpa using hst
          · simp only [List.mem_cons, List.not_mem_nil, or_false]
            rintro x (rfl | rfl)
            · exact hmu g hgm
            · exact ⟨hva, hvb⟩
          · rintro rfl
            exact hu
        cases k with
        | mole => exact two _ _ hVF.1 (by linarith [hVF.2]) (by ring)
        | mass =>
          obtain ⟨s, t, hw, hs0, ht0, hst⟩ := hns e.MW fun p hp =>
            mixSum_pos (h.comp_nonneg p hp) (h.comp_sum p hp) h.MW_pos
          simp only [muKVL, ES.betasMassStates, hw]
          exact two _ _ hs0 ht0 hst
        | volume =>
          obtain ⟨s, t, hw, hs0, ht0, hst⟩ := hns (fun p => p.V) h.V_pos
          simp only [muKVL, ES.betasVolumeStates, hw]
          exact two _ _ hs0 ht0 hst
  rw [ES.muBulk, hg]
  cases hq : e.phases with
  | nil => rw [hq] at hlen; simp at hlen; omega
  | cons p t =>
  cases t with
  | nil => rw [hq] at hlen; simp only [List.length_cons, List.length_nil] at hlen; omega
  | cons q t =>
    rw [hq] at hv
    dsimp only
    rw [hv]
    cases VL with
    | mcAdams => exact main
    | cicchitti => exact main
    | rule m =>
      obtain ⟨hm, hu, hn1, hn2⟩ := hVL
      cases m with
      | asOneLiquid => exact absurd rfl hn1
      | asOneGas => exact absurd rfl hn2
      | other => exact main
      | minimum => exact main
      | maximum => exact main
      | weighted k f => exact main

/-- **C71.** The liquid bulk: with the mass or volume weighted rules (the default is mass weighted), the minimum or
the maximum, the property of the liquid bulk lies between bounds on that of the liquids (partial: with mole
weighting it does not if there is a gas or a solid, see `C71_liquid_bulk_fails`). -/
theorem C71_liquid_bulk_partial {N : ℕ} {e : ES N} (h : e.Ok) (hl : e.liquids ≠ []) {mu : EPh N → ℝ} {a b : ℝ}
    (ha : 0 < a) (hmu : ∀ p ∈ e.liquids, a ≤ mu p ∧ mu p ≤ b) {LL : Method} {eL : Option ℝ} {one : ℝ}
    (hm : allowedLL LL) (hu : LL.usable eL) (h1 : LL ≠ .asOneLiquid) (h2 : ∀ f, LL ≠ .weighted .mole f) :
    Between (e.muLiquidBulk mu LL eL one) a b := by
  have key : ∀ w : EPh N → ℝ, (∀ p ∈ e.phases, 0 < w p) →
      (ES.weightFractions w e.liquidsBetas e.liquids).length = e.liquids.length ∧
      (∀ x ∈ ES.weightFractions w e.liquidsBetas e.liquids, 0 ≤ x) := by
    intro w hw
    have hne : e.liquidsBetas.zip e.liquids ≠ [] := by
      intro h0
      have := congrArg List.length h0
      rw [List.length_zip, (e.zip_parts h.length).2.1, Nat.min_self] at this
      exact hl (List.length_eq_zero_iff.mp this)
    have hp : 0 < wsum (e.liquidsBetas.zip e.liquids) w :=
      wsum_pos hne fun x hx => ⟨(liquids_mem h hx).1, hw _ (liquids_mem h hx).2⟩
    simp only [ES.weightFractions, loopTotal_eq]
    refine ⟨by rw [List.length_zipWith, (e.zip_parts h.length).2.1, Nat.min_self], ?_⟩
    have hz : ∀ (bs : List ℝ) (ps : List (EPh N)) (t : ℝ), List.zipWith (fun b p => b * w p * t) bs ps
        = (bs.zip ps).map fun y => y.1 * w y.2 * t := by
      intro bs ps t
      induction bs generalizing ps with
      | nil => simp
      | cons b bs ih =>
        cases ps with
        | nil => simp
        | cons p ps => simp [ih]
    rw [hz]
    intro x hx
    obtain ⟨y, hy, rfl⟩ := List.mem_map.mp hx
    have := liquids_mem h hy
    exact mul_nonneg (mul_nonneg this.1.le (hw _ this.2).le) (one_div_nonneg.mpr hp.le)
  have hMW : ∀ p ∈ e.phases, 0 < e.MW p := fun p hp => mixSum_pos (h.comp_nonneg p hp) (h.comp_sum p hp) h.MW_pos
  have hsum := C69_liquids h hl
  rw [ES.betasMassLiquids, ES.betasVolumeLiquids, if_neg fun h0 => hl (List.length_eq_zero_iff.mp h0),
    if_neg fun h0 => hl (List.length_eq_zero_iff.mp h0)] at hsum
  have hr : Between (propertyMixingRule LL eL one e.liquidWeights (e.liquids.map mu)) a b := by
    have hpr : ∀ x ∈ e.liquids.map mu, a ≤ x ∧ x ≤ b := by
      intro x hx
      obtain ⟨p, hp, rfl⟩ := List.mem_map.mp hx
      exact hmu p hp
    have hne : e.liquids.map mu ≠ [] := by simpa using hl
    cases LL with
    | asOneLiquid => exact absurd rfl h1
    | asOneGas => exact hm.elim
    | other => exact hm.elim
    | minimum => exact listMin_between hne hpr
    | maximum => exact listMax_between hne hpr
    | weighted k f =>
      have hk : (e.liquidWeights k).length = (e.liquids.map mu).length ∧ (∀ w ∈ e.liquidWeights k, 0 ≤ w) ∧
          (e.liquidWeights k).sum = 1 := by
        rw [List.length_map]
        cases k with
        | mole => exact absurd rfl (h2 f)
        | mass => exact ⟨(key _ hMW).1, (key _ hMW).2, hsum.2.1⟩
        | volume => exact ⟨(key _ h.V_pos).1, (key _ h.V_pos).2, hsum.2.2.1⟩
      refine mixForm_between ha ?_ ?_ ?_ f eL ?_
      · intro x hx
        obtain ⟨x1, x2⟩ := x
        exact hk.2.1 _ (List.of_mem_zip hx).1
      · rw [map_fst_zip hk.1]; exact hk.2.2
      · intro x hx
        obtain ⟨x1, x2⟩ := x
        exact hpr _ (List.of_mem_zip hx).2
      · rintro rfl
        exact hu
  rw [ES.muLiquidBulk]
  cases hq : e.liquids with
  | nil => exact absurd hq hl
  | cons p t =>
    cases t with
    | nil => exact ⟨_, rfl, hmu p (by rw [hq]; simp)⟩
    | cons q t => rw [hq] at hr; exact hr

/-- **C71.** For a positive property and weights which sum to one, the logarithmic rule never gives more than the
linear rule with the same weights. -/
theorem C71_log_le_linear {xs : List (ℝ × ℝ)} (h0 : ∀ x ∈ xs, 0 ≤ x.1) (h1 : (xs.map Prod.fst).sum = 1)
    (hp : ∀ x ∈ xs, 0 < x.2) (e : Option ℝ) :
    ∃ u v, mixForm .log e xs = .ok u ∧ mixForm .linear e xs = .ok v ∧ u ≤ v := by
  have hn : ¬ ∃ x ∈ xs, x.2 ≤ 0 := fun ⟨x, hx, h2⟩ => absurd (hp x hx) (not_lt.mpr h2)
  refine ⟨_, _, by rw [mixForm]; exact if_neg hn, rfl, ?_⟩
  have hv : 0 < (xs.map fun x => x.1 * x.2).sum := by
    have hge : ∀ l : List (ℝ × ℝ), (∀ x ∈ l, 0 ≤ x.1) → (∀ x ∈ l, 0 < x.2) →
        0 ≤ (l.map fun x => x.1 * x.2).sum ∧ (0 < (l.map Prod.fst).sum → 0 < (l.map fun x => x.1 * x.2).sum) := by
      intro l
      induction l with
      | nil => simp
      | cons x l ih =>
        intro g0 g1
        have ih := ih (fun y hy => g0 y (by simp [hy])) (fun y hy => g1 y (by simp [hy]))
        have gx := g0 x (by simp)
        have gp := g1 x (by simp)
        simp only [List.map_cons, List.sum_cons]
        refine ⟨add_nonneg (mul_nonneg gx gp.le) ih.1, fun hs => ?_⟩
        rcases gx.lt_or_eq with g | g
        · exact add_pos_of_pos_of_nonneg (mul_pos g gp) ih.1
        · rw [← g, zero_add] at hs
          rw [← g, zero_mul, zero_add]
          exact ih.2 hs
    exact (hge xs h0 hp).2 (by rw [h1]; exact one_pos)
  generalize hs : (xs.map fun x => x.1 * x.2).sum = s at hv ⊢
  rw [← Real.le_log_iff_exp_le hv]
  have key : ∀ l : List (ℝ × ℝ), (∀ x ∈ l, 0 ≤ x.1) → (∀ x ∈ l, 0 < x.2) →
      (l.map fun x => x.1 * Real.log x.2).sum ≤
        (l.map Prod.fst).sum * Real.log s + ((l.map fun x => x.1 * x.2).sum / s - (l.map Prod.fst).sum) := by
    intro l
    induction l with
    | nil => simp
    | cons x l ih =>
      intro g0 g1
      have ih := ih (fun y hy => g0 y (by simp [hy])) (fun y hy => g1 y (by simp [hy]))
      have gp := g1 x (by simp)
      have hlog : Real.log x.2 ≤ Real.log s + (x.2 / s - 1) := by
        have := Real.log_le_sub_one_of_pos (div_pos gp hv)
        rw [Real.log_div gp.ne' hv.ne'] at this
        linarith
      have := mul_le_mul_of_nonneg_left hlog (g0 x (by simp))
      simp only [List.map_cons, List.sum_cons, add_div, add_mul]
      have e : x.1 * (Real.log s + (x.2 / s - 1)) = x.1 * Real.log s + (x.1 * x.2 / s - x.1) := by ring
      linarith
  have := key xs h0 hp
  rw [h1, hs, div_self hv.ne'] at this
  linarith

/-- **C71.** The logarithmic settings offered for `dP_dV` can never be used for a bulk containing a stable phase
(`dP_dV` is negative): they raise a math domain error. -/
theorem C71_log_dP_dV_fails {k : Basis} {e : Option ℝ} {one : ℝ} {ws : Basis → List ℝ} {props : List ℝ}
    (hw : (ws k).length = props.length) (h : ∃ x ∈ props, x < 0) :
    propertyMixingRule (.weighted k .log) e one ws props = .error .mathDomain := by
  obtain ⟨x, hx, h0⟩ := h
  simp only [propertyMixingRule, mixForm]
  refine if_pos ?_
  obtain ⟨i, hi, rfl⟩ := List.getElem_of_mem hx
  refine ⟨((ws k)[i]'(by omega), props[i]), ?_, h0.le⟩
  rw [List.mem_iff_getElem]
  exact ⟨i, by simp [List.length_zip, hw, hi], by simp⟩

/-- **C71.** Two liquids of viscosity one next to a gas: the mole-weighted rules give the liquid bulk the viscosity
`LF = 1/2`, although every liquid has viscosity one (the fractions do not sum to one). -/
theorem C71_liquid_bulk_fails : ∃ (e : ES 2) (mu : EPh 2 → ℝ), e.Ok ∧ (∀ p ∈ e.liquids, mu p = 1) ∧
    e.muLiquidBulk mu (.weighted .mole .linear) none 0 = .ok (1 / 2) := by
  refine ⟨demoES, fun _ => 1, demoES_ok, fun _ _ => rfl, ?_⟩
  norm_num [ES.muLiquidBulk, demoES, propertyMixingRule, mixForm, ES.liquidWeights, ES.liquidsBetas, ES.gasCount]

/-- **C71.** A gas and a liquid of viscosity one next to a solid: the mass-weighted rule gives the bulk the
viscosity 3/5, because the mass fractions of gas and liquid do not sum to one. -/
theorem C71_solids_fails : ∃ (e : ES 2) (mu : EPh 2 → ℝ), e.Ok ∧ (∀ p ∈ e.phases, mu p = 1) ∧
    e.muBulk mu (.weighted .mass .linear) none (.rule (.weighted .mass .linear)) none 0 0 = .ok (3 / 5) := by
  refine ⟨demoVLS, fun _ => 1, demoVLS_ok, fun _ _ => rfl, ?_⟩
  norm_num [ES.muBulk, ES.muLiquidBulk, muKVL, mixForm, ES.phases, ES.betasMassStates, ES.weightStates,
    ES.loopTotal, ES.gasBeta, ES.gasCount, ES.liquidsBetas, ES.solidsBetas, ES.MW, mixSum, demoVLS, Fin.sum_univ_two]

/-- **C71.** A gas and a solid without a liquid: every setting other than the two which treat everything as one
phase ends in an `IndexError`. -/
theorem C71_gas_solid_fails {N : ℕ} {e : ES N} {g s : EPh N} (hg : e.gas = some g) (hl : e.liquids = [])
    (hs : e.solids = [s]) (mu : EPh N → ℝ) (LL : Method) (eL eV : Option ℝ) (VL : VLMethod) (oneL oneG : ℝ)
    (h1 : VL ≠ .rule .asOneLiquid) (h2 : VL ≠ .rule .asOneGas) :
    e.muBulk mu LL eL VL eV oneL oneG = .error .indexError := by
  have hp : e.phases = [g, s] := by rw [ES.phases, hg, hl, hs]; rfl
  rw [ES.muBulk, hg, hp]
  simp only [List.length_cons, List.length_nil, if_true, hl]

/-! ### Examples -/

example : Between (propertyMixingRule (.weighted .mass .power) (some (1 / 2)) 0 (fun _ => [1 / 2, 1 / 2]) [1, 4])
    1 4 := by
  rcases C71_bounds (ws := fun _ => [1 / 2, 1 / 2]) (props := [1, 4]) (a := 1) (b := 4)
    (m := .weighted .mass .power) (e := some (1 / 2)) (one := 0) one_pos (by simp) (by norm_num)
    (fun _ => by norm_num) trivial ⟨_, rfl, by norm_num⟩ with h | h
  · exact absurd h.1 (by simp)
  · exact h

/-- The state `demoES` without its gas. -/
noncomputable def demoLL : ES 2 where
  zs := ![1 / 4, 3 / 4]
  gas := none
  liquids := demoES.liquids
  solids := []
  betas := [1 / 2, 1 / 2]
  MWs := ![2, 4]
  Vls := ![1, 3]

theorem demoLL_ok : demoLL.Ok where
  length := rfl
  pos := by simp [demoLL]
  sum := by norm_num [demoLL]
  comp_nonneg := by
    intro p hp i
    simp only [demoLL, demoES, ES.phases, List.append_nil, List.mem_cons, List.not_mem_nil, or_false] at hp
    rcases hp with rfl | rfl <;> fin_cases i <;> norm_num
  comp_sum := by
    intro p hp
    simp only [demoLL, demoES, ES.phases, List.append_nil, List.mem_cons, List.not_mem_nil, or_false] at hp
    rcases hp with rfl | rfl <;> norm_num [Fin.sum_univ_two]
  balance := by
    intro i
    fin_cases i <;> norm_num [demoLL, demoES, ES.phases]
  MW_pos := by intro i; fin_cases i <;> norm_num [demoLL]
  Vls_pos := by intro i; fin_cases i <;> norm_num [demoLL]
  V_pos := by
    intro p hp
    simp only [demoLL, demoES, ES.phases, List.append_nil, List.mem_cons, List.not_mem_nil, or_false] at hp
    rcases hp with rfl | rfl <;> norm_num

example : Between (demoLL.muBulk (fun p => p.V) (.weighted .mole .log) none .mcAdams none 0 0) 1 2 :=
  C71_no_gas demoLL_ok rfl one_pos (by
    intro p hp
    simp only [demoLL, demoES, ES.phases, List.append_nil, List.mem_cons, List.not_mem_nil, or_false] at hp
    rcases hp with rfl | rfl <;> norm_num) trivial trivial (by simp)

theorem demo_liquids : ∀ p ∈ demoES.liquids, 1 ≤ p.V ∧ p.V ≤ 10 := by
  intro p hp
  simp only [demoES, List.mem_cons, List.not_mem_nil, or_false] at hp
  rcases hp with rfl | rfl <;> norm_num

example : Between (demoES.muBulk (fun p => p.V) (.weighted .mass .log) none .mcAdams none 0 0) 1 10 :=
  C71_gas_liquid_partial demoES_ok (g := { zs := ![3 / 4, 1 / 4], V := 10, H := 8 }) rfl rfl (by simp [demoES])
    one_pos (by
      intro p hp
      simp only [demoES, ES.phases, List.cons_append, List.nil_append, List.append_nil, List.mem_cons,
        List.not_mem_nil, or_false] at hp
      rcases hp with rfl | rfl | rfl <;> norm_num)
    (fun _ => C71_liquid_bulk_partial demoES_ok (by simp [demoES]) one_pos demo_liquids trivial trivial (by simp)
      (by simp)) trivial

example : 1 ≤ McAdams (1 / 2) 1 2 ∧ McAdams (1 / 2) 1 2 ≤ Cicchitti (1 / 2) 1 2 ∧ Cicchitti (1 / 2) 1 2 ≤ 2 :=
  C71_correlations (by norm_num) (by norm_num) one_pos (by norm_num) (by norm_num)

example : ∃ u v, mixForm .log none [(1 / 2, 1), (1 / 2, 3)] = .ok u ∧
    mixForm .linear none [((1 / 2 : ℝ), (1 : ℝ)), (1 / 2, 3)] = .ok v ∧ u ≤ v :=
  C71_log_le_linear (by simp) (by norm_num) (by simp) none

example : propertyMixingRule (.weighted .mole .log) none 0 (fun _ => [1 / 2, 1 / 2]) [-1, -2] = .error .mathDomain :=
  C71_log_dP_dV_fails rfl ⟨-1, by simp, by norm_num⟩

example : ES.muBulk (N := 1) ⟨![1], some ⟨![1], 1, 0⟩, [], [⟨![1], 1, 0⟩], [1 / 2, 1 / 2], ![1], ![1]⟩
    (fun _ => 1) .minimum none .mcAdams none 0 0 = .error .indexError :=
  C71_gas_solid_fails rfl rfl rfl _ _ _ _ _ _ _ (by simp) (by simp)

end Verif.Equil
