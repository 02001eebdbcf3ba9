import Verif.Equilibrium.Bulk
import Mathlib.Algebra.BigOperators.Fin
import Mathlib.Algebra.BigOperators.Ring.Finset

/-!
# Equilibrium states (`thermo/equilibrium.py`, class `EquilibriumState`)

* C69: phase fractions on a molar, mass and volume basis.
* C70: flows of phases and of the liquid bulk.

A phase in an equilibrium state is described by its composition and the values of the methods used here. The
constants of the components are the molecular weights and the liquid reference volumes. Lists are Python lists;
slices are `take` and `drop`. Of the caches (`try: return self._X`) only the shared one of `betas_volume` and
`betas_volume_liquid_ref` is modelled, the others return what they stored under their own name.
-/

namespace Verif.Equil

/-- A phase: mole fractions, molar volume, molar enthalpy (the values of `zs`, `V()`, `H()`). -/
structure EPh (N : ℕ) where
  zs : Fin N → ℝ
  V : ℝ
  H : ℝ

/-- The arguments of `EquilibriumState.__init__` (equilibrium.py 263-267) which matter here. -/
structure ES (N : ℕ) where
  zs : Fin N → ℝ
  gas : Option (EPh N)
  liquids : List (EPh N)
  solids : List (EPh N)
  betas : List ℝ
  /-- `constants.MWs` -/
  MWs : Fin N → ℝ
  /-- the value of `V_liquids_ref` (equilibrium.py 711-731) -/
  Vls : Fin N → ℝ

/-- The loop of `Phase.MW`, `V_liquid_ref` and similar: `for i in range(N): x += zs[i]*c[i]`. -/
def mixSum {N : ℕ} (zs c : Fin N → ℝ) : ℝ := ∑ i, zs i * c i

namespace ES
variable {N : ℕ} (e : ES N)

/-- equilibrium.py 275 -/
def gasCount : ℕ := if e.gas.isSome then 1 else 0
/-- equilibrium.py 284-288 -/
def phases : List (EPh N) :=
  match e.gas with
  | some g => [g] ++ e.liquids ++ e.solids
  | none => e.liquids ++ e.solids
/-- equilibrium.py 291 -/
def gasBeta : ℝ := if e.gasCount = 0 then 0 else e.betas.headD 0
/-- equilibrium.py 292: `betas[gas_count:gas_count + liquid_count]` -/
def liquidsBetas : List ℝ := (e.betas.take (e.gasCount + e.liquids.length)).drop e.gasCount
/-- equilibrium.py 293: `betas[gas_count + liquid_count:]` -/
def solidsBetas : List ℝ := e.betas.drop (e.gasCount + e.liquids.length)

/-- `Phase.MW` (phase.py 4494-4517) -/
def MW (p : EPh N) : ℝ := mixSum p.zs e.MWs
/-- `V_liquid_ref` of a phase (equilibrium.py 733-759) -/
def Vref (p : EPh N) : ℝ := mixSum p.zs e.Vls

/-- equilibrium.py 380-395 -/
def VF : ℝ := if e.gas.isSome then e.betas.headD 0 else 0
/-- equilibrium.py 398-411 -/
def LF : ℝ := e.liquidsBetas.sum
/-- equilibrium.py 442-461 -/
def betasStates : List ℝ := [e.gasBeta, e.liquidsBetas.sum, e.solidsBetas.sum]

/-- The loop `tot += ws[i]*betas[i]`. -/
def loopTotal (w : EPh N → ℝ) (bs : List ℝ) (ps : List (EPh N)) : ℝ :=
  (List.zipWith (fun b p => w p * b) bs ps).sum

/-- The common form of `betas_mass_states` (equilibrium.py 463-498) and `betas_volume_states` (500-535). -/
noncomputable def weightStates (w : EPh N → ℝ) : List ℝ :=
  let g := (match e.gas with | some g => w g | none => 0) * e.gasBeta
  let l := loopTotal w e.liquidsBetas e.liquids
  let s := loopTotal w e.solidsBetas e.solids
  let tot := 1 / (g + l + s)
  [g * tot, l * tot, s * tot]

/-- equilibrium.py 463-498 -/
noncomputable def betasMassStates : List ℝ := e.weightStates e.MW
/-- equilibrium.py 500-535 -/
noncomputable def betasVolumeStates : List ℝ := e.weightStates fun p => p.V

/-- The common form of `betas_mass` (equilibrium.py 556-565), `betas_volume` (585-594) and
`betas_volume_liquid_ref` (614-622). -/
noncomputable def weightFractions (w : EPh N → ℝ) (bs : List ℝ) (ps : List (EPh N)) : List ℝ :=
  let totInv := 1 / loopTotal w bs ps
  List.zipWith (fun b p => b * w p * totInv) bs ps

/-- equilibrium.py 538-565 -/
noncomputable def betasMass : List ℝ := weightFractions e.MW e.betas e.phases
/-- The value `betas_volume` computes (equilibrium.py 585-592). -/
noncomputable def betasVolume : List ℝ := weightFractions (fun p => p.V) e.betas e.phases
/-- The value `betas_volume_liquid_ref` computes (equilibrium.py 614-620). -/
noncomputable def betasVolumeRef : List ℝ := weightFractions e.Vref e.betas e.phases
/-- equilibrium.py 624-652 -/
noncomputable def betasLiquids : List ℝ :=
  let tot := e.liquidsBetas.sum
  if tot = 0 then [] else e.liquidsBetas.map fun v => v * (1 / tot)
/-- equilibrium.py 654-680 -/
noncomputable def betasMassLiquids : List ℝ :=
  if e.liquids.length = 0 then [] else weightFractions e.MW e.liquidsBetas e.liquids
/-- equilibrium.py 682-709 -/
noncomputable def betasVolumeLiquids : List ℝ :=
  if e.liquids.length = 0 then [] else weightFractions (fun p => p.V) e.liquidsBetas e.liquids

/-- `normalize` of `chemicals`: `xs[i]/sum(xs)` (a list with sum zero is not divided; not relevant here). -/
noncomputable def normalize (xs : Fin N → ℝ) : Fin N → ℝ := fun i => xs i / ∑ j, xs j

/-- `liquid_zs` for two and more liquids (equilibrium.py 298-299). -/
noncomputable def liquidZs : Fin N → ℝ :=
  normalize fun i => (List.zipWith (fun b (p : EPh N) => b * p.zs i) e.liquidsBetas e.liquids).sum

/-- The liquid bulk as a phase (equilibrium.py 295-314): a `Bulk` object of the liquids with the fractions
`liquids_betas` for two or more liquids (its volume and enthalpy are the loops of bulk.py 979-1073), the liquid
itself for one. -/
noncomputable def liquidBulk : Option (EPh N) :=
  if 1 < e.liquids.length then
    some { zs := e.liquidZs
           V := wsum (e.liquidsBetas.zip e.liquids) fun p => p.V
           H := wsum (e.liquidsBetas.zip e.liquids) fun p => p.H }
  else e.liquids.head?

/-- `quality` (equilibrium.py 413-440); `vapor_mass_quality` of `chemicals` is
`VF*MWg/(VF*MWg + (1.0 - VF)*MWl)`. -/
noncomputable def quality : ℝ :=
  match e.gas, e.liquidBulk with
  | some g, some l => e.gasBeta * e.MW g / (e.gasBeta * e.MW g + (1 - e.gasBeta) * e.MW l)
  | some _, none => 1
  | none, _ => 0

end ES

/-! ### The shared cache -/

/-- The two properties which use the attribute `_betas_volume_liquid_ref` as their cache. -/
inductive VolumeProp | volume | volumeRef

/-- One access to `betas_volume` (equilibrium.py 580-594) or `betas_volume_liquid_ref` (609-622): returned value
and the attribute afterwards. -/
noncomputable def ES.readVolume {N : ℕ} (e : ES N) (cache : Option (List ℝ)) (p : VolumeProp) :
    List ℝ × Option (List ℝ) :=
  match cache with
  | some v => (v, some v)
  | none =>
    let v := match p with
      | .volume => e.betasVolume
      | .volumeRef => e.betasVolumeRef
    (v, some v)

/-- The value returned by an access after a sequence of earlier accesses to a new object. -/
noncomputable def ES.readAfter {N : ℕ} (e : ES N) (before : List VolumeProp) (p : VolumeProp) : List ℝ :=
  (e.readVolume (before.foldl (fun c q => (e.readVolume c q).2) none) p).1

/-! ## Specification -/

/-- A consistent equilibrium state: one positive fraction per phase, fractions sum to one, every composition is
normalised, the components are conserved, weights and volumes are positive. -/
structure ES.Ok {N : ℕ} (e : ES N) : Prop where
  length : e.betas.length = e.phases.length
  pos : ∀ b ∈ e.betas, 0 < b
  sum : e.betas.sum = 1
  comp_nonneg : ∀ p ∈ e.phases, ∀ i, 0 ≤ p.zs i
  comp_sum : ∀ p ∈ e.phases, ∑ i, p.zs i = 1
  balance : ∀ i, e.zs i = (List.zipWith (fun b (p : EPh N) => b * p.zs i) e.betas e.phases).sum
  MW_pos : ∀ i, 0 < e.MWs i
  Vls_pos : ∀ i, 0 < e.Vls i
  V_pos : ∀ p ∈ e.phases, 0 < p.V

/-! ## Lemmas -/

section
variable {N : ℕ}

theorem loopTotal_eq (w : EPh N → ℝ) (bs : List ℝ) (ps : List (EPh N)) :
    ES.loopTotal w bs ps = wsum (bs.zip ps) w := by
  simp only [ES.loopTotal, wsum]
  induction bs generalizing ps with
  | nil => simp
  | cons b bs ih =>
    cases ps with
    | nil => simp
    | cons p ps => simp only [List.zipWith_cons_cons, List.zip_cons_cons, List.map_cons, List.sum_cons, ih]; ring

theorem wsum_append {α : Type} (a b : List (ℝ × α)) (f : α → ℝ) : wsum (a ++ b) f = wsum a f + wsum b f := by
  simp [wsum]

theorem wsum_one (bs : List ℝ) (ps : List (EPh N)) (h : bs.length = ps.length) :
    wsum (bs.zip ps) (fun _ => 1) = bs.sum := by
  induction bs generalizing ps with
  | nil => simp
  | cons b bs ih =>
    cases ps with
    | nil => simp at h
    | cons p ps => simp [ih ps (by simpa using h)]

/-- The parts of the zipped list. -/
theorem ES.zip_parts (e : ES N) (h : e.betas.length = e.phases.length) :
    e.betas.zip e.phases = (match e.gas with | some g => [(e.gasBeta, g)] | none => []) ++
      e.liquidsBetas.zip e.liquids ++ e.solidsBetas.zip e.solids ∧
    e.liquidsBetas.length = e.liquids.length ∧ e.solidsBetas.length = e.solids.length ∧
    e.betas = (match e.gas with | some _ => [e.gasBeta] | none => []) ++ e.liquidsBetas ++ e.solidsBetas := by
  obtain ⟨zs, gas, liquids, solids, betas, MWs, Vls⟩ := e
  have key : ∀ bs : List ℝ, bs.length = liquids.length + solids.length →
      bs.zip (liquids ++ solids) = (bs.take liquids.length).zip liquids ++ (bs.drop liquids.length).zip solids := by
    intro bs hb
    have hl : (bs.take liquids.length).length = liquids.length := by
      rw [List.length_take]; omega
    have h1 := List.zip_append (r₁ := bs.drop liquids.length) (r₂ := solids) hl
    rw [List.take_append_drop] at h1
    exact h1
  cases gas with
  | none =>
    simp only [ES.phases, List.length_append] at h
    simp only [ES.phases, ES.liquidsBetas, ES.solidsBetas, ES.gasCount, ES.gasBeta, Option.isSome_none,
      Bool.false_eq_true, if_false, List.nil_append, Nat.zero_add, List.drop_zero]
    refine ⟨key betas h, ?_, ?_, (List.take_append_drop _ _).symm⟩
    · rw [List.length_take]; omega
    · rw [List.length_drop]; omega
  | some g =>
    cases betas with
    | nil => simp [ES.phases] at h
    | cons b bs =>
      simp only [ES.phases, List.length_append, List.length_cons, List.length_nil] at h
      have hb : bs.length = liquids.length + solids.length := by omega
      simp only [ES.phases, ES.liquidsBetas, ES.solidsBetas, ES.gasCount, ES.gasBeta, Option.isSome_some, if_true]
      simp only [Nat.add_comm 1, List.take_succ_cons, List.drop_succ_cons, List.drop_zero, List.headD_cons,
        one_ne_zero, if_false, List.cons_append, List.nil_append, List.zip_cons_cons, List.append_assoc]
      refine ⟨by rw [key bs hb], ?_, ?_, by rw [List.take_append_drop]⟩
      · rw [List.length_take]; omega
      · rw [List.length_drop]; omega

theorem wsum_zs (c : Fin N → ℝ) (l : List (ℝ × EPh N)) :
    wsum l (fun p => mixSum p.zs c) = ∑ i, wsum l (fun p => p.zs i) * c i := by
  induction l with
  | nil => simp
  | cons x l ih =>
    rw [wsum_cons, ih]
    simp only [wsum_cons, mixSum, add_mul, Finset.sum_add_distrib, Finset.mul_sum, mul_assoc]

theorem zipWith_wsum (bs : List ℝ) (ps : List (EPh N)) (f : EPh N → ℝ) :
    (List.zipWith (fun b p => b * f p) bs ps).sum = wsum (bs.zip ps) f := by
  simp only [wsum]
  induction bs generalizing ps with
  | nil => simp
  | cons b bs ih =>
    cases ps with
    | nil => simp
    | cons p ps => simp [ih]

theorem ES.Ok.mix {e : ES N} (h : e.Ok) (c : Fin N → ℝ) :
    wsum (e.betas.zip e.phases) (fun p => mixSum p.zs c) = mixSum e.zs c := by
  rw [wsum_zs]
  simp only [mixSum]
  refine Finset.sum_congr rfl fun i _ => ?_
  rw [h.balance i, zipWith_wsum]

theorem mem_zip_pos {e : ES N} (h : e.Ok) {x : ℝ × EPh N} (hx : x ∈ e.betas.zip e.phases) :
    0 < x.1 ∧ x.2 ∈ e.phases := by
  obtain ⟨a, b⟩ := x
  exact ⟨h.pos _ (List.of_mem_zip hx).1, (List.of_mem_zip hx).2⟩

theorem ES.Ok.ne_nil {e : ES N} (h : e.Ok) : e.betas.zip e.phases ≠ [] := by
  intro h0
  have h1 : e.betas ≠ [] := by
    intro h1
    have := h.sum
    rw [h1] at this
    simp at this
  have h2 : e.phases ≠ [] := by
    intro h2
    apply h1
    have := h.length
    rw [h2] at this
    exact List.length_eq_zero_iff.mp this
  have := congrArg List.length h0
  rw [List.length_zip, h.length, Nat.min_self] at this
  exact h2 (List.length_eq_zero_iff.mp this)

theorem mixSum_pos {zs c : Fin N → ℝ} (h0 : ∀ i, 0 ≤ zs i) (h1 : ∑ i, zs i = 1) (hc : ∀ i, 0 < c i) :
    0 < mixSum zs c := by
  have hn : 0 ≤ mixSum zs c := Finset.sum_nonneg fun i _ => mul_nonneg (h0 i) (hc i).le
  rcases hn.lt_or_eq with h | h
  · exact h
  · exfalso
    have h2 : ∀ i ∈ Finset.univ, zs i * c i = 0 :=
      (Finset.sum_eq_zero_iff_of_nonneg fun i _ => mul_nonneg (h0 i) (hc i).le).mp h.symm
    have h3 : ∑ i, zs i = 0 := Finset.sum_eq_zero fun i hi => by
      have := h2 i hi
      exact (mul_eq_zero.mp this).resolve_right (hc i).ne'
    rw [h1] at h3
    exact one_ne_zero h3

theorem weightFractions_spec {e : ES N} (h : e.Ok) {w : EPh N → ℝ} (hw : ∀ p ∈ e.phases, 0 < w p) :
    ES.weightFractions w e.betas e.phases =
      (e.betas.zip e.phases).map (fun x => x.1 * w x.2 / wsum (e.betas.zip e.phases) w) ∧
    (ES.weightFractions w e.betas e.phases).sum = 1 ∧
    0 < wsum (e.betas.zip e.phases) w := by
  have hp : 0 < wsum (e.betas.zip e.phases) w :=
    wsum_pos h.ne_nil fun x hx => ⟨(mem_zip_pos h hx).1, hw _ (mem_zip_pos h hx).2⟩
  have e1 : ES.weightFractions w e.betas e.phases =
      (e.betas.zip e.phases).map (fun x => x.1 * w x.2 / wsum (e.betas.zip e.phases) w) := by
    simp only [ES.weightFractions, loopTotal_eq]
    generalize wsum (e.betas.zip e.phases) w = t
    generalize e.betas = bs
    generalize e.phases = ps
    induction bs generalizing ps with
    | nil => simp
    | cons b bs ih =>
      cases ps with
      | nil => simp
      | cons p ps =>
        rw [List.zipWith_cons_cons, List.zip_cons_cons, List.map_cons, ih ps]
        simp only [div_eq_mul_inv, one_mul]
  refine ⟨e1, ?_, hp⟩
  rw [e1]
  have : ∀ l : List (ℝ × EPh N), ∀ t : ℝ, (l.map fun x => x.1 * w x.2 / t).sum = wsum l w / t := by
    intro l t
    induction l with
    | nil => simp
    | cons x l ih => simp [ih, add_div]
  rw [this, div_self hp.ne']

theorem weightStates_spec {e : ES N} (h : e.Ok) {w : EPh N → ℝ} (hw : ∀ p ∈ e.phases, 0 < w p) :
    e.weightStates w =
      [wsum (match e.gas with | some g => [(e.gasBeta, g)] | none => []) w / wsum (e.betas.zip e.phases) w,
       wsum (e.liquidsBetas.zip e.liquids) w / wsum (e.betas.zip e.phases) w,
       wsum (e.solidsBetas.zip e.solids) w / wsum (e.betas.zip e.phases) w] ∧
    (e.weightStates w).sum = 1 := by
  have hp := (weightFractions_spec h hw).2.2
  have ep := (e.zip_parts h.length).1
  have key : ∀ g : ℝ, wsum (match e.gas with | some g => [(e.gasBeta, g)] | none => []) w = g →
      (match e.gas with | some g => w g | none => 0) * e.gasBeta = g := by
    intro g hg
    rw [← hg]
    cases e.gas with
    | none => simp
    | some g => simp [mul_comm]
  have e1 : e.weightStates w =
      [wsum (match e.gas with | some g => [(e.gasBeta, g)] | none => []) w / wsum (e.betas.zip e.phases) w,
       wsum (e.liquidsBetas.zip e.liquids) w / wsum (e.betas.zip e.phases) w,
       wsum (e.solidsBetas.zip e.solids) w / wsum (e.betas.zip e.phases) w] := by
    simp only [ES.weightStates, loopTotal_eq]
    rw [key _ rfl, ep, wsum_append, wsum_append]
    simp only [div_eq_mul_inv, one_mul]
  refine ⟨e1, ?_⟩
  rw [e1]
  have hp' := hp.ne'
  rw [ep, wsum_append, wsum_append] at hp' ⊢
  simp only [List.sum_cons, List.sum_nil, add_zero]
  rw [← add_div, ← add_div, ← add_assoc, div_self hp']

end

/-! ## C69: phase fractions -/

/-- **C69.** The fractions of gas, liquids and solids partition the list of phase fractions in the order of the
phases: they sum to one, and `VF` and `LF` are the gas and the liquid fraction. -/
theorem C69_states {N : ℕ} {e : ES N} (h : e.Ok) :
    e.betasStates.sum = 1 ∧ e.betasStates = [e.VF, e.LF, 1 - e.VF - e.LF] ∧
    e.liquidsBetas.length = e.liquids.length ∧ e.solidsBetas.length = e.solids.length ∧
    e.betas = (if e.gas.isSome then [e.VF] else []) ++ e.liquidsBetas ++ e.solidsBetas := by
  obtain ⟨-, h2, h3, h4⟩ := e.zip_parts h.length
  have hg : e.gasBeta = e.VF := by
    rw [ES.gasBeta, ES.VF, ES.gasCount]
    cases e.gas <;> simp
  have h5 : e.betas = (if e.gas.isSome then [e.VF] else []) ++ e.liquidsBetas ++ e.solidsBetas := by
    rw [hg] at h4
    cases hgas : e.gas with
    | none => rw [hgas] at h4; simpa using h4
    | some g => rw [hgas] at h4; simpa using h4
  have h6 : e.VF + e.liquidsBetas.sum + e.solidsBetas.sum = 1 := by
    have := h.sum
    rw [h5, List.sum_append, List.sum_append] at this
    cases hgas : e.gas with
    | none =>
      have hv : e.VF = 0 := by rw [ES.VF, hgas]; simp
      rw [hgas] at this
      rw [hv]
      simpa using this
    | some g =>
      rw [hgas] at this
      simpa using this
  refine ⟨?_, ?_, h2, h3, h5⟩
  · rw [ES.betasStates, hg]
    simp only [List.sum_cons, List.sum_nil]
    linarith
  · rw [ES.betasStates, hg, ES.LF]
    have : e.solidsBetas.sum = 1 - e.VF - e.liquidsBetas.sum := by linarith
    rw [this]

/-- **C69.** The mass fractions of the phases sum to one, and the mass fraction of each phase is the mass of its
share of a mole of the mixture divided by the molecular weight of the mixture; the same for the volume fractions
with the molar volume of the mixture, and for the liquid reference volume fractions. -/
theorem C69_fractions {N : ℕ} {e : ES N} (h : e.Ok) :
    e.betasMass.sum = 1 ∧ e.betasVolume.sum = 1 ∧ e.betasVolumeRef.sum = 1 ∧
    e.betasMass = (e.betas.zip e.phases).map (fun x => x.1 * (∑ i, x.2.zs i * e.MWs i) / ∑ i, e.zs i * e.MWs i) ∧
    e.betasVolume = (e.betas.zip e.phases).map
      (fun x => x.1 * x.2.V / ((e.betas.zip e.phases).map fun y => y.1 * y.2.V).sum) ∧
    e.betasVolumeRef = (e.betas.zip e.phases).map
      (fun x => x.1 * (∑ i, x.2.zs i * e.Vls i) / ∑ i, e.zs i * e.Vls i) := by
  have hM := weightFractions_spec h (w := e.MW) fun p hp => mixSum_pos (h.comp_nonneg p hp) (h.comp_sum p hp) h.MW_pos
  have hR := weightFractions_spec h (w := e.Vref) fun p hp =>
    mixSum_pos (h.comp_nonneg p hp) (h.comp_sum p hp) h.Vls_pos
  have hV := weightFractions_spec h (w := fun p => p.V) h.V_pos
  have e1 : wsum (e.betas.zip e.phases) e.MW = ∑ i, e.zs i * e.MWs i := h.mix e.MWs
  have e2 : wsum (e.betas.zip e.phases) e.Vref = ∑ i, e.zs i * e.Vls i := h.mix e.Vls
  refine ⟨hM.2.1, hV.2.1, hR.2.1, ?_, hV.1, ?_⟩
  · rw [ES.betasMass, hM.1, e1]; rfl
  · rw [ES.betasVolumeRef, hR.1, e2]; rfl

/-- **C69.** The mass and volume fractions of gas, liquids and solids sum to one and are the sums of the fractions
of the phases of that kind, in this order. -/
theorem C69_weight_states {N : ℕ} {e : ES N} (h : e.Ok) :
    e.betasMassStates.sum = 1 ∧ e.betasVolumeStates.sum = 1 ∧
    e.betasMassStates = [(e.betasMass.take e.gasCount).sum,
      ((e.betasMass.drop e.gasCount).take e.liquids.length).sum,
      (e.betasMass.drop (e.gasCount + e.liquids.length)).sum] ∧
    e.betasVolumeStates = [(e.betasVolume.take e.gasCount).sum,
      ((e.betasVolume.drop e.gasCount).take e.liquids.length).sum,
      (e.betasVolume.drop (e.gasCount + e.liquids.length)).sum] := by
  have hw : ∀ p ∈ e.phases, 0 < e.MW p := fun p hp => mixSum_pos (h.comp_nonneg p hp) (h.comp_sum p hp) h.MW_pos
  have key : ∀ w : EPh N → ℝ, (∀ p ∈ e.phases, 0 < w p) → e.weightStates w =
      [((ES.weightFractions w e.betas e.phases).take e.gasCount).sum,
        (((ES.weightFractions w e.betas e.phases).drop e.gasCount).take e.liquids.length).sum,
        ((ES.weightFractions w e.betas e.phases).drop (e.gasCount + e.liquids.length)).sum] := by
    intro w hw
    obtain ⟨hp1, hp2, hp3, -⟩ := e.zip_parts h.length
    rw [(weightStates_spec h hw).1, (weightFractions_spec h hw).1]
    generalize wsum (e.betas.zip e.phases) w = t
    rw [hp1]
    have this : ∀ l : List (ℝ × EPh N), (l.map fun x => x.1 * w x.2 / t).sum = wsum l w / t := by
      intro l
      induction l with
      | nil => simp
      | cons x l ih => simp [ih, add_div]
    have hl : (e.liquidsBetas.zip e.liquids).length = e.liquids.length := by
      rw [List.length_zip, hp2, Nat.min_self]
    cases hg : e.gas with
    | none =>
      have hc : e.gasCount = 0 := by rw [ES.gasCount, hg]; simp
      rw [hc]
      simp only [List.nil_append, List.map_append, List.take_zero, List.sum_nil, List.drop_zero, Nat.zero_add]
      rw [List.take_append_of_le_length (by simp [hl]), List.take_of_length_le (by simp [hl]),
        List.drop_append_of_le_length (by simp [hl]), List.drop_of_length_le (by simp [hl]), List.nil_append,
        this, this, wsum_nil, zero_div]
    | some g =>
      have hc : e.gasCount = 1 := by rw [ES.gasCount, hg]; simp
      rw [hc]
      simp only [List.cons_append, List.nil_append, List.map_cons, List.map_append, List.take_succ_cons,
        List.take_zero, List.drop_succ_cons, List.drop_zero, Nat.add_comm 1, List.sum_cons, List.sum_nil, add_zero]
      rw [List.take_append_of_le_length (by simp [hl]), List.take_of_length_le (by simp [hl]),
        List.drop_append_of_le_length (by simp [hl]), List.drop_of_length_le (by simp [hl]), List.nil_append,
        this, this]
      simp
  exact ⟨(weightStates_spec h hw).2, (weightStates_spec h h.V_pos).2, key _ hw, key _ h.V_pos⟩

/-- **C69.** (partial: the two properties share one cache attribute.) A first access to `betas_volume` or
`betas_volume_liquid_ref` of a new state returns the right fractions, and so does every later access to the same
property as long as the other one has not been read first; what is missing is the other order, see
`C69_shared_cache_fails`. -/
theorem C69_volume_reads_partial {N : ℕ} (e : ES N) (n : ℕ) :
    e.readAfter (List.replicate n .volume) .volume = e.betasVolume ∧
    e.readAfter (List.replicate n .volumeRef) .volumeRef = e.betasVolumeRef := by
  constructor
  · cases n with
    | zero => rfl
    | succ n =>
      have : ∀ m, (List.replicate m VolumeProp.volume).foldl (fun c q => (e.readVolume c q).2) (some e.betasVolume)
          = some e.betasVolume := by
        intro m
        induction m with
        | zero => rfl
        | succ m ih => exact ih
      simp only [ES.readAfter, List.replicate_succ, List.foldl_cons]
      rw [show (e.readVolume none .volume).2 = some e.betasVolume from rfl, this]
      rfl
  · cases n with
    | zero => rfl
    | succ n =>
      have : ∀ m, (List.replicate m VolumeProp.volumeRef).foldl (fun c q => (e.readVolume c q).2)
          (some e.betasVolumeRef) = some e.betasVolumeRef := by
        intro m
        induction m with
        | zero => rfl
        | succ m ih => exact ih
      simp only [ES.readAfter, List.replicate_succ, List.foldl_cons]
      rw [show (e.readVolume none .volumeRef).2 = some e.betasVolumeRef from rfl, this]
      rfl

/-- Whatever is read first determines all later answers. -/
theorem ES.readAfter_first {N : ℕ} (e : ES N) (first : VolumeProp) (before : List VolumeProp) (p : VolumeProp) :
    e.readAfter (first :: before) p = (e.readVolume none first).1 := by
  have : ∀ (l : List VolumeProp) (v : List ℝ), l.foldl (fun c q => (e.readVolume c q).2) (some v) = some v := by
    intro l v
    induction l with
    | nil => rfl
    | cons q l ih => exact ih
  simp only [ES.readAfter, List.foldl_cons]
  rw [show (e.readVolume none first).2 = some (e.readVolume none first).1 from rfl, this]
  rfl

/-! ## C69 continued: liquids and quality -/

section
variable {N : ℕ}

/-- The liquids of a consistent state: positive fractions, and the phases are phases of the state. -/
theorem liquids_mem {e : ES N} (h : e.Ok) {x : ℝ × EPh N} (hx : x ∈ e.liquidsBetas.zip e.liquids) :
    0 < x.1 ∧ x.2 ∈ e.phases := by
  refine mem_zip_pos h ?_
  rw [(e.zip_parts h.length).1]
  simp [hx]

theorem liquids_one {e : ES N} (h : e.Ok) : wsum (e.liquidsBetas.zip e.liquids) (fun _ => 1) = e.LF :=
  wsum_one _ _ (e.zip_parts h.length).2.1

theorem LF_pos {e : ES N} (h : e.Ok) (hl : e.liquids ≠ []) : 0 < e.LF := by
  rw [← liquids_one h]
  refine wsum_pos ?_ fun x hx => ⟨(liquids_mem h hx).1, one_pos⟩
  intro h0
  have := congrArg List.length h0
  rw [List.length_zip, (e.zip_parts h.length).2.1, Nat.min_self] at this
  exact hl (List.length_eq_zero_iff.mp this)

/-- The composition of the liquid bulk is the average of the compositions of the liquids. -/
theorem liquidZs_eq {e : ES N} (h : e.Ok) (i : Fin N) :
    e.liquidZs i = wsum (e.liquidsBetas.zip e.liquids) (fun p => p.zs i) / e.LF := by
  have h1 : ∑ j, wsum (e.liquidsBetas.zip e.liquids) (fun p => p.zs j) = e.LF := by
    have := wsum_zs (fun _ : Fin N => (1 : ℝ)) (e.liquidsBetas.zip e.liquids)
    simp only [mul_one] at this
    rw [← this, ← liquids_one h]
    exact wsum_congr fun x hx => by
      simp only [mixSum, mul_one]
      exact h.comp_sum _ (liquids_mem h hx).2
  simp only [ES.liquidZs, ES.normalize, zipWith_wsum]
  rw [h1]

theorem liquidZs_mix {e : ES N} (h : e.Ok) (c : Fin N → ℝ) :
    mixSum e.liquidZs c = wsum (e.liquidsBetas.zip e.liquids) (fun p => mixSum p.zs c) / e.LF := by
  rw [wsum_zs, mixSum, div_eq_mul_inv, Finset.sum_mul]
  refine Finset.sum_congr rfl fun i _ => ?_
  rw [liquidZs_eq h, div_eq_mul_inv]
  ring

/-- The molecular weight of the liquid bulk, for any number of liquids. -/
theorem liquidBulk_MW {e : ES N} (h : e.Ok) {l : EPh N} (hl : e.liquidBulk = some l) :
    e.LF * e.MW l = wsum (e.liquidsBetas.zip e.liquids) e.MW := by
  rw [ES.liquidBulk] at hl
  split at hl
  · rename_i h1
    have hne : e.liquids ≠ [] := by intro h0; rw [h0] at h1; simp at h1
    obtain rfl := Option.some.inj hl
    change e.LF * mixSum e.liquidZs e.MWs = _
    rw [liquidZs_mix h]
    have := (LF_pos h hne).ne'
    change e.LF * (wsum _ e.MW / e.LF) = _
    field_simp
  · rename_i h1
    have h2 := (e.zip_parts h.length).2.1
    rw [ES.LF]
    cases hq : e.liquids with
    | nil => rw [hq] at hl; simp at hl
    | cons a t =>
      rw [hq] at hl h1 h2
      simp only [List.length_cons, not_lt] at h1
      have ht : t = [] := List.length_eq_zero_iff.mp (by omega)
      subst ht
      simp only [List.head?_cons, Option.some.injEq] at hl
      subst hl
      cases hb : e.liquidsBetas with
      | nil => rw [hb] at h2; simp at h2
      | cons b bs =>
        rw [hb] at h2
        simp only [List.length_cons, List.length_nil] at h2
        have : bs = [] := List.length_eq_zero_iff.mp (by omega)
        subst this
        simp

/-- **C69.** If there is a liquid, the fractions of the liquids among the liquids sum to one on the molar, mass
and volume basis; the molar ones are the liquid fractions divided by `LF`. -/
theorem C69_liquids {e : ES N} (h : e.Ok) (hl : e.liquids ≠ []) :
    e.betasLiquids.sum = 1 ∧ e.betasMassLiquids.sum = 1 ∧ e.betasVolumeLiquids.sum = 1 ∧
    e.betasLiquids = e.liquidsBetas.map (fun b => b / e.LF) := by
  have hLF := LF_pos h hl
  have hlen : e.liquids.length ≠ 0 := fun h0 => hl (List.length_eq_zero_iff.mp h0)
  have hne : e.liquidsBetas.zip e.liquids ≠ [] := by
    intro h0
    have := congrArg List.length h0
    rw [List.length_zip, (e.zip_parts h.length).2.1, Nat.min_self] at this
    exact hlen this
  have key : ∀ w : EPh N → ℝ, (∀ p ∈ e.phases, 0 < w p) →
      (ES.weightFractions w e.liquidsBetas e.liquids).sum = 1 := by
    intro w hw
    have hp : 0 < wsum (e.liquidsBetas.zip e.liquids) w :=
      wsum_pos hne fun x hx => ⟨(liquids_mem h hx).1, hw _ (liquids_mem h hx).2⟩
    simp only [ES.weightFractions, loopTotal_eq]
    have this : ∀ (bs : List ℝ) (ps : List (EPh N)) (t : ℝ),
        (List.zipWith (fun b p => b * w p * t) bs ps).sum = wsum (bs.zip ps) w * t := by
      intro bs ps t
      induction bs generalizing ps with
      | nil => simp
      | cons b bs ih =>
        cases ps with
        | nil => simp
        | cons p ps => simp [ih, add_mul]
    rw [this]
    field_simp
  have e1 : e.betasLiquids = e.liquidsBetas.map (fun b => b / e.LF) := by
    rw [ES.betasLiquids]
    rw [if_neg (by exact hLF.ne')]
    simp only [ES.LF, div_eq_mul_inv, one_mul]
  refine ⟨?_, ?_, ?_, e1⟩
  · rw [e1]
    have : ∀ (l : List ℝ) (t : ℝ), (l.map fun b => b / t).sum = l.sum / t := by
      intro l t
      induction l with
      | nil => simp
      | cons x l ih => simp [ih, add_div]
    rw [this]
    exact div_self hLF.ne'
  · rw [ES.betasMassLiquids, if_neg hlen]
    exact key _ fun p hp => mixSum_pos (h.comp_nonneg p hp) (h.comp_sum p hp) h.MW_pos
  · rw [ES.betasVolumeLiquids, if_neg hlen]
    exact key _ h.V_pos

/-- **C69.** (partial: no solids.) The vapour quality is the mass fraction of the gas if there are no solid
phases; what is missing is a state with solids, see `C69_quality_fails`. -/
theorem C69_quality_partial {e : ES N} (h : e.Ok) (hs : e.solids = []) :
    e.betasMassStates.head? = some e.quality := by
  have hw : ∀ p ∈ e.phases, 0 < e.MW p := fun p hp => mixSum_pos (h.comp_nonneg p hp) (h.comp_sum p hp) h.MW_pos
  obtain ⟨hp1, hp2, hp3, hp4⟩ := e.zip_parts h.length
  have hst := C69_states h
  rw [ES.betasMassStates, (weightStates_spec h hw).1, List.head?_cons]
  congr 1
  have hs0 : e.solidsBetas = [] := by
    rw [hs] at hp3
    exact List.length_eq_zero_iff.mp hp3
  have htot := (weightFractions_spec h hw).2.2
  rw [hp1, wsum_append, wsum_append, hs0] at htot ⊢
  simp only [List.zip_nil_left, wsum_nil, add_zero] at htot ⊢
  have hLF : e.LF = 1 - e.gasBeta := by
    have h1 := hst.1
    rw [ES.betasStates, hs0] at h1
    simp only [List.sum_cons, List.sum_nil, add_zero] at h1
    rw [ES.LF]; linarith
  cases hg : e.gas with
  | none => simp [ES.quality, hg]
  | some g =>
    rw [hg] at htot
    simp only [wsum_cons, wsum_nil, add_zero] at htot ⊢
    cases hl : e.liquidBulk with
    | none =>
      have hnil : e.liquids = [] := by
        rw [ES.liquidBulk] at hl
        split at hl
        · exact absurd hl (by simp)
        · simpa using hl
      rw [hnil] at htot ⊢
      simp only [List.zip_nil_right, wsum_nil, add_zero, ES.quality, hg, hl] at htot ⊢
      exact div_self htot.ne'
    | some l =>
      have hM := liquidBulk_MW h hl
      rw [hLF] at hM
      simp only [ES.quality, hg, hl]
      rw [hM]

end

/-! ### Examples -/

/-- A gas and a liquid of the first component and a solid of the second one. -/
noncomputable def demoVLS : ES 2 where
  zs := ![3 / 4, 1 / 4]
  gas := some { zs := ![1, 0], V := 1, H := 0 }
  liquids := [{ zs := ![1, 0], V := 1, H := 0 }]
  solids := [{ zs := ![0, 1], V := 1, H := 0 }]
  betas := [1 / 2, 1 / 4, 1 / 4]
  MWs := ![2, 4]
  Vls := ![1, 1]

theorem demoVLS_ok : demoVLS.Ok where
  length := rfl
  pos := by simp [demoVLS]
  sum := by norm_num [demoVLS]
  comp_nonneg := by
    intro p hp i
    simp only [demoVLS, ES.phases, List.cons_append, List.nil_append, List.mem_cons,
      List.not_mem_nil, or_false] at hp
    rcases hp with rfl | rfl | rfl <;> fin_cases i <;> norm_num
  comp_sum := by
    intro p hp
    simp only [demoVLS, ES.phases, List.cons_append, List.nil_append, List.mem_cons,
      List.not_mem_nil, or_false] at hp
    rcases hp with rfl | rfl | rfl <;> norm_num [Fin.sum_univ_two]
  balance := by
    intro i
    fin_cases i <;> norm_num [demoVLS, ES.phases]
  MW_pos := by intro i; fin_cases i <;> norm_num [demoVLS]
  Vls_pos := by intro i; fin_cases i <;> norm_num [demoVLS]
  V_pos := by
    intro p hp
    simp only [demoVLS, ES.phases, List.cons_append, List.nil_append, List.mem_cons,
      List.not_mem_nil, or_false] at hp
    rcases hp with rfl | rfl | rfl <;> norm_num

/-- **C69.** With a solid phase the vapour quality is not the mass fraction of the gas: the solid is counted as if
it were liquid. -/
theorem C69_quality_fails : ∃ e : ES 2, e.Ok ∧ e.betasMassStates.head? ≠ some e.quality := by
  refine ⟨demoVLS, demoVLS_ok, ?_⟩
  norm_num [ES.quality, ES.liquidBulk, ES.betasMassStates, ES.weightStates, ES.loopTotal, ES.gasBeta, ES.gasCount,
    ES.liquidsBetas, ES.solidsBetas, ES.MW, mixSum, demoVLS, Fin.sum_univ_two]

/-- A gas and two liquids of two components, in the amounts 1/2, 1/4, 1/4. -/
noncomputable def demoES : ES 2 where
  zs := ![1 / 2, 1 / 2]
  gas := some { zs := ![3 / 4, 1 / 4], V := 10, H := 8 }
  liquids := [{ zs := ![1 / 2, 1 / 2], V := 1, H := 4 }, { zs := ![0, 1], V := 2, H := 0 }]
  solids := []
  betas := [1 / 2, 1 / 4, 1 / 4]
  MWs := ![2, 4]
  Vls := ![1, 3]

theorem demoES_ok : demoES.Ok where
  length := rfl
  pos := by simp [demoES]
  sum := by norm_num [demoES]
  comp_nonneg := by
    intro p hp i
    simp only [demoES, ES.phases, List.cons_append, List.nil_append, List.append_nil, List.mem_cons,
      List.not_mem_nil, or_false] at hp
    rcases hp with rfl | rfl | rfl <;> fin_cases i <;> norm_num
  comp_sum := by
    intro p hp
    simp only [demoES, ES.phases, List.cons_append, List.nil_append, List.append_nil, List.mem_cons,
      List.not_mem_nil, or_false] at hp
    rcases hp with rfl | rfl | rfl <;> norm_num [Fin.sum_univ_two]
  balance := by
    intro i
    fin_cases i <;> norm_num [demoES, ES.phases]
  MW_pos := by intro i; fin_cases i <;> norm_num [demoES]
  Vls_pos := by intro i; fin_cases i <;> norm_num [demoES]
  V_pos := by
    intro p hp
    simp only [demoES, ES.phases, List.cons_append, List.nil_append, List.append_nil, List.mem_cons,
      List.not_mem_nil, or_false] at hp
    rcases hp with rfl | rfl | rfl <;> norm_num

theorem demo_volume : demoES.betasVolume = [20 / 23, 1 / 23, 2 / 23] := by
  norm_num [ES.betasVolume, ES.weightFractions, ES.loopTotal, demoES, ES.phases]

theorem demo_volumeRef : demoES.betasVolumeRef = [3 / 8, 1 / 4, 3 / 8] := by
  norm_num [ES.betasVolumeRef, ES.weightFractions, ES.loopTotal, demoES, ES.phases, ES.Vref, mixSum,
    Fin.sum_univ_two]

/-- **C69.** The volume fractions depend on what was read before: after reading `betas_volume`, the property
`betas_volume_liquid_ref` of some consistent state returns the wrong fractions, and the other way round. -/
theorem C69_shared_cache_fails : ∃ (e : ES 2), e.Ok ∧
    e.readAfter [.volume] .volumeRef ≠ e.betasVolumeRef ∧ e.readAfter [.volumeRef] .volume ≠ e.betasVolume := by
  refine ⟨demoES, demoES_ok, ?_, ?_⟩
  · rw [ES.readAfter_first]
    change demoES.betasVolume ≠ _
    rw [demo_volume, demo_volumeRef]
    norm_num
  · rw [ES.readAfter_first]
    change demoES.betasVolumeRef ≠ _
    rw [demo_volume, demo_volumeRef]
    norm_num

example : demoES.betasStates = [1 / 2, 1 / 2, 0] := by
  norm_num [ES.betasStates, ES.gasBeta, ES.liquidsBetas, ES.solidsBetas, ES.gasCount, demoES]

example : demoES.betasMass.sum = 1 ∧ demoES.betasMass = [5 / 12, 1 / 4, 1 / 3] :=
  ⟨(C69_fractions demoES_ok).1, by
    norm_num [ES.betasMass, ES.weightFractions, ES.loopTotal, demoES, ES.phases, ES.MW, mixSum, Fin.sum_univ_two]⟩

example : demoES.betasVolumeStates = [20 / 23, 3 / 23, 0] := by
  rw [(C69_weight_states demoES_ok).2.2.2, demo_volume]
  norm_num [ES.gasCount, demoES]

example : demoES.betasLiquids = [1 / 2, 1 / 2] ∧ demoES.betasMassLiquids.sum = 1 :=
  ⟨by norm_num [ES.betasLiquids, ES.liquidsBetas, ES.gasCount, demoES],
    (C69_liquids demoES_ok (by simp [demoES])).2.1⟩

example : demoES.betasMassStates.head? = some demoES.quality ∧ demoES.betasMassStates.head? = some (5 / 12) :=
  ⟨C69_quality_partial demoES_ok rfl, by
    norm_num [ES.betasMassStates, ES.weightStates, ES.loopTotal, ES.gasBeta, ES.gasCount,
      ES.liquidsBetas, ES.solidsBetas, ES.MW, mixSum, demoES, Fin.sum_univ_two]⟩

example : demoES.readAfter [.volume, .volume] .volume = demoES.betasVolume := (C69_volume_reads_partial demoES 2).1

/-! ## C70: flows -/

/-- `Phase.rho_mass` (phase.py 4554-4570), also of the liquid bulk. -/
noncomputable def ES.rhoMass {N : ℕ} (e : ES N) (p : EPh N) : ℝ := e.MW p / (1000 * p.V)

/-- `Phase.ws` (phase.py 5140-5167) -/
noncomputable def ES.ws {N : ℕ} (e : ES N) (p : EPh N) : Fin N → ℝ :=
  fun i => p.zs i * e.MWs i * (1 / ∑ j, p.zs j * e.MWs j)

/-- Flows of a phase or of the liquid bulk: `n`, `m`, `ns`, `ms`, `Q`, `energy`. -/
structure Flows (N : ℕ) where
  n : ℝ
  m : ℝ
  ns : Fin N → ℝ
  ms : Fin N → ℝ
  Q : ℝ
  energy : ℝ

/-- The flow properties of `Phase` (phase.py 5303-5490) for a phase with the fractions `beta` and `beta_mass` in a
stream of `n` moles and mass `m` per time. -/
noncomputable def ES.flowsOf {N : ℕ} (e : ES N) (n m beta betaMass : ℝ) (p : EPh N) : Flows N where
  n := n * beta
  m := m * betaMass
  ns i := n * beta * p.zs i
  ms i := m * betaMass * e.ws p i
  Q := n * beta * p.V
  energy := n * beta * p.H

/-- The flows of all phases: `beta` and `beta_mass` are found at the index of the phase (phase.py 5200-5242). -/
noncomputable def ES.phaseFlows {N : ℕ} (e : ES N) (n m : ℝ) : List (Flows N) :=
  List.zipWith (fun (b : ℝ × ℝ) p => e.flowsOf n m b.1 b.2 p) (e.betas.zip e.betasMass) e.phases

/-- The flows of the liquid bulk, for two or more liquids a `Bulk` object: there `beta` is the sum of its phase
fractions and `beta_mass` the sum of its own `betas_mass` (bulk.py 650-689). -/
noncomputable def ES.liquidBulkFlows {N : ℕ} (e : ES N) (n m : ℝ) (l : EPh N) : Flows N :=
  e.flowsOf n m e.liquidsBetas.sum (ES.weightFractions e.MW e.liquidsBetas e.liquids).sum l

section
variable {N : ℕ}

theorem phaseFlows_eq {e : ES N} (h : e.Ok) (n m : ℝ) :
    e.phaseFlows n m = (e.betas.zip e.phases).map
      (fun x => e.flowsOf n m x.1 (x.1 * e.MW x.2 / mixSum e.zs e.MWs) x.2) := by
  have hM := (weightFractions_spec h (w := e.MW)
    fun p hp => mixSum_pos (h.comp_nonneg p hp) (h.comp_sum p hp) h.MW_pos).1
  have e1 : wsum (e.betas.zip e.phases) e.MW = mixSum e.zs e.MWs := h.mix e.MWs
  rw [ES.phaseFlows, ES.betasMass, hM, e1]
  generalize mixSum e.zs e.MWs = t
  have hlen := h.length
  generalize e.betas = bs at *
  generalize e.phases = ps at *
  clear hM e1
  induction bs generalizing ps with
  | nil => simp
  | cons b bs ih =>
    cases ps with
    | nil => simp at hlen
    | cons p ps =>
      simp only [List.zip_cons_cons, List.map_cons, List.zipWith_cons_cons]
      rw [ih ps (by simpa using hlen)]

/-- **C70.** The flows of the phases add up to the flows of the stream: moles, mass, the moles and masses of each
component, volume and energy (the last two are the total volume and enthalpy of the phases); and the mass flow of
each component in a phase is its mole flow times its molecular weight if this is so for the stream. -/
theorem C70_flows {e : ES N} (h : e.Ok) (n m : ℝ) :
    ((e.phaseFlows n m).map Flows.n).sum = n ∧ ((e.phaseFlows n m).map Flows.m).sum = m ∧
    (∀ i, ((e.phaseFlows n m).map fun f => f.ns i).sum = n * e.zs i) ∧
    (∀ i, ((e.phaseFlows n m).map fun f => f.ms i).sum = m * (e.zs i * e.MWs i / ∑ j, e.zs j * e.MWs j)) ∧
    ((e.phaseFlows n m).map Flows.Q).sum = n * ((e.betas.zip e.phases).map fun x => x.1 * x.2.V).sum ∧
    ((e.phaseFlows n m).map Flows.energy).sum = n * ((e.betas.zip e.phases).map fun x => x.1 * x.2.H).sum ∧
    (1000 * m = n * ∑ j, e.zs j * e.MWs j → ∀ f ∈ e.phaseFlows n m, ∀ i, 1000 * f.ms i = f.ns i * e.MWs i) := by
  have hw : ∀ p ∈ e.phases, 0 < e.MW p := fun p hp => mixSum_pos (h.comp_nonneg p hp) (h.comp_sum p hp) h.MW_pos
  have hpos : 0 < mixSum e.zs e.MWs := by
    rw [← h.mix e.MWs]; exact (weightFractions_spec h hw).2.2
  have hM : wsum (e.betas.zip e.phases) e.MW = mixSum e.zs e.MWs := h.mix e.MWs
  have sums : ∀ f : EPh N → ℝ, ∀ c : ℝ, ((e.betas.zip e.phases).map fun x => c * x.1 * f x.2).sum
      = c * wsum (e.betas.zip e.phases) f := by
    intro f c
    generalize e.betas.zip e.phases = l
    induction l with
    | nil => simp
    | cons x l ih => simp only [List.map_cons, List.sum_cons, ih, wsum_cons]; ring
  rw [phaseFlows_eq h]
  simp only [List.map_map]
  refine ⟨?_, ?_, fun i => ?_, fun i => ?_, ?_, ?_, ?_⟩
  · have := sums (fun _ => 1) n
    rw [wsum_one _ _ h.length, h.sum] at this
    simp only [mul_one] at this
    exact this
  · have := sums e.MW (m / mixSum e.zs e.MWs)
    rw [hM, div_mul_cancel₀ _ hpos.ne'] at this
    refine Eq.trans (congrArg List.sum (List.map_congr_left fun x _ => ?_)) this
    simp only [Function.comp, ES.flowsOf]
    ring
  · have := sums (fun p => p.zs i) n
    rw [h.balance i, zipWith_wsum, ← this]
    rfl
  · have hz := sums (fun p => p.zs i) (m * e.MWs i / mixSum e.zs e.MWs)
    rw [h.balance i, zipWith_wsum]
    have : m * (wsum (e.betas.zip e.phases) (fun p => p.zs i) * e.MWs i / ∑ j, e.zs j * e.MWs j)
        = m * e.MWs i / mixSum e.zs e.MWs * wsum (e.betas.zip e.phases) fun p => p.zs i := by
      rw [mixSum]; ring
    rw [this, ← hz]
    congr 1
    refine List.map_congr_left fun x hx => ?_
    have hp := hw _ (mem_zip_pos h hx).2
    simp only [Function.comp, ES.flowsOf, ES.ws]
    rw [← mixSum.eq_1, show mixSum x.2.zs e.MWs = e.MW x.2 from rfl]
    have := hp.ne'
    have := hpos.ne'
    field_simp
  · have := sums (fun p => p.V) n
    rw [wsum] at this
    rw [← this]; rfl
  · have := sums (fun p => p.H) n
    rw [wsum] at this
    rw [← this]; rfl
  · intro hm f hf i
    obtain ⟨x, hx, rfl⟩ := List.mem_map.mp hf
    have hp := hw _ (mem_zip_pos h hx).2
    simp only [ES.flowsOf, ES.ws]
    rw [← mixSum.eq_1] at hm ⊢
    rw [show mixSum x.2.zs e.MWs = e.MW x.2 from rfl]
    have := hp.ne'
    have := hpos.ne'
    field_simp
    linear_combination x.1 * x.2.zs i * e.MWs i * hm

/-- **C70.** (partial: only the molar flows.) The mole flow of the liquid bulk and the mole flow of each component
in it are the sums over the liquids. Its volume, enthalpy, mass, volume flow, energy and density are wrong unless
there are only liquids, see `C70_liquid_bulk_scaled` and `C70_liquid_bulk_fails`. -/
theorem C70_liquid_bulk_partial {e : ES N} (h : e.Ok) (n m : ℝ) {l : EPh N} (h2 : 1 < e.liquids.length)
    (hl : e.liquidBulk = some l) :
    (e.liquidBulkFlows n m l).n = (e.liquidsBetas.map fun b => n * b).sum ∧
    ∀ i, (e.liquidBulkFlows n m l).ns i
      = ((e.liquidsBetas.zip e.liquids).map fun x => n * x.1 * x.2.zs i).sum := by
  have hne : e.liquids ≠ [] := by intro h0; rw [h0] at h2; simp at h2
  have hLF := (LF_pos h hne).ne'
  rw [ES.liquidBulk, if_pos h2] at hl
  obtain rfl := Option.some.inj hl
  constructor
  · simp only [ES.liquidBulkFlows, ES.flowsOf]
    rw [List.sum_map_mul_left]
    simp
  · intro i
    simp only [ES.liquidBulkFlows, ES.flowsOf]
    rw [liquidZs_eq h]
    change n * e.LF * _ = _
    have : ∀ L : List (ℝ × EPh N), (L.map fun x => n * x.1 * x.2.zs i).sum = n * wsum L fun p => p.zs i := by
      intro L
      induction L with
      | nil => simp
      | cons x L ih => simp only [List.map_cons, List.sum_cons, ih, wsum_cons]; ring
    rw [this]
    field_simp

/-- **C70.** Two or more liquids: the molar volume and enthalpy of the liquid bulk are the averages over the
liquids *multiplied by the liquid fraction* `LF`; its volume flow and energy are the sums over the liquids
multiplied by `LF`, its mass density is the mass of the liquids by their volume *divided* by `LF`, and its mass
flow is the mass flow of the whole stream. With no gas and no solids (`LF = 1`) these are right. -/
theorem C70_liquid_bulk_scaled {e : ES N} (h : e.Ok) (n m : ℝ) {l : EPh N} (h2 : 1 < e.liquids.length)
    (hl : e.liquidBulk = some l) :
    l.V = e.LF * (((e.liquidsBetas.zip e.liquids).map fun x => x.1 * x.2.V).sum / e.LF) ∧
    l.H = e.LF * (((e.liquidsBetas.zip e.liquids).map fun x => x.1 * x.2.H).sum / e.LF) ∧
    (e.liquidBulkFlows n m l).Q = e.LF * ((e.liquidsBetas.zip e.liquids).map fun x => n * x.1 * x.2.V).sum ∧
    (e.liquidBulkFlows n m l).energy = e.LF * ((e.liquidsBetas.zip e.liquids).map fun x => n * x.1 * x.2.H).sum ∧
    e.rhoMass l = ((e.liquidsBetas.zip e.liquids).map fun x => x.1 * ∑ i, x.2.zs i * e.MWs i).sum /
      (1000 * ((e.liquidsBetas.zip e.liquids).map fun x => x.1 * x.2.V).sum) / e.LF ∧
    (e.liquidBulkFlows n m l).m = m := by
  have hne : e.liquids ≠ [] := by intro h0; rw [h0] at h2; simp at h2
  have hLF := (LF_pos h hne).ne'
  have hMW := liquidBulk_MW h hl
  have hml := (C69_liquids h hne).2.1
  rw [ES.betasMassLiquids, if_neg fun h0 => hne (List.length_eq_zero_iff.mp h0)] at hml
  rw [ES.liquidBulk, if_pos h2] at hl
  obtain rfl := Option.some.inj hl
  have this : ∀ (f : EPh N → ℝ) (L : List (ℝ × EPh N)), (L.map fun x => n * x.1 * f x.2).sum = n * wsum L f := by
    intro f L
    induction L with
    | nil => simp
    | cons x L ih => simp only [List.map_cons, List.sum_cons, ih, wsum_cons]; ring
  refine ⟨?_, ?_, ?_, ?_, ?_, ?_⟩
  · rw [mul_div_cancel₀ _ hLF]; rfl
  · rw [mul_div_cancel₀ _ hLF]; rfl
  · rw [this (fun p => p.V)]
    simp only [ES.liquidBulkFlows, ES.flowsOf]
    change n * e.LF * _ = _
    ring
  · rw [this (fun p => p.H)]
    simp only [ES.liquidBulkFlows, ES.flowsOf]
    change n * e.LF * _ = _
    ring
  · change e.MW _ / (1000 * wsum _ fun p : EPh N => p.V) = wsum _ e.MW / (1000 * wsum _ fun p : EPh N => p.V) / e.LF
    rw [← hMW]
    field_simp
  · simp only [ES.liquidBulkFlows, ES.flowsOf]
    rw [hml, mul_one]

end

/-- **C70.** In a state with a gas and two liquids, the liquid bulk's molar volume is not between the molar
volumes of the liquids, its volume flow and energy are not the sums over the liquids, and its mass flow is not
the sum of the mass flows of the liquids but that of the whole stream including the gas. -/
theorem C70_liquid_bulk_fails : ∃ (e : ES 2) (l : EPh 2), e.Ok ∧ e.liquidBulk = some l ∧
    (∀ p ∈ e.liquids, l.V < p.V) ∧
    (e.liquidBulkFlows 1 1 l).Q ≠ ((e.liquidsBetas.zip e.liquids).map fun x => 1 * x.1 * x.2.V).sum ∧
    (e.liquidBulkFlows 1 1 l).energy ≠ ((e.liquidsBetas.zip e.liquids).map fun x => 1 * x.1 * x.2.H).sum ∧
    (e.liquidBulkFlows 1 1 l).m ≠ (((e.phaseFlows 1 1).drop 1).map Flows.m).sum := by
  have hl : demoES.liquidBulk = some _ := if_pos (by norm_num [demoES])
  have hsc := C70_liquid_bulk_scaled demoES_ok 1 1 (by norm_num [demoES]) hl
  have hLF : demoES.LF = 1 / 2 := by norm_num [ES.LF, ES.liquidsBetas, ES.gasCount, demoES]
  refine ⟨demoES, _, demoES_ok, hl, ?_, ?_, ?_, ?_⟩
  · intro p hp
    simp only [demoES, List.mem_cons, List.not_mem_nil, or_false] at hp
    rcases hp with rfl | rfl <;> norm_num [ES.liquidsBetas, ES.gasCount, demoES]
  · rw [hsc.2.2.1, hLF]
    norm_num [ES.liquidsBetas, ES.gasCount, demoES]
  · rw [hsc.2.2.2.1, hLF]
    norm_num [ES.liquidsBetas, ES.gasCount, demoES]
  · rw [hsc.2.2.2.2.2, phaseFlows_eq demoES_ok]
    norm_num [ES.phases, ES.flowsOf, ES.MW, mixSum, demoES, Fin.sum_univ_two]

example : ((demoES.phaseFlows 2 3).map Flows.n).sum = 2 ∧ ((demoES.phaseFlows 2 3).map Flows.m).sum = 3 :=
  ⟨(C70_flows demoES_ok 2 3).1, (C70_flows demoES_ok 2 3).2.1⟩

example : ∃ l, demoES.liquidBulk = some l ∧ (demoES.liquidBulkFlows 2 3 l).n = 1 := by
  have hl : demoES.liquidBulk = some _ := if_pos (by norm_num [demoES])
  refine ⟨_, hl, ?_⟩
  rw [(C70_liquid_bulk_partial demoES_ok 2 3 (by norm_num [demoES]) hl).1]
  norm_num [ES.liquidsBetas, ES.gasCount, demoES]

end Verif.Equil
