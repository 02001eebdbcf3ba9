import Mathlib.Tactic
import Mathlib.Analysis.SpecialFunctions.Log.Deriv
import Mathlib.Analysis.Calculus.LocalExtr.Basic
import Mathlib.Algebra.BigOperators.Field

/-!
# Minimisation of the Gibbs energy of several phases (`thermo/flash/flash_utils.py` 1368-1618) and the results of bounded dew and bubble points (1689-1772) (C128)

`minimize_gibbs_NP_transformed`: the flows of the phases from the variables of the minimiser, their fractions and
compositions, the objective, and the point that is returned.  The phases are represented by their logarithmic fugacity
coefficients as functions of the composition; the minimisers of scipy by the list of points at which they evaluate the
objective.  `trunc_exp` and `trunc_log` are the exponential and the logarithm away from their limits.
-/

namespace Verif.GibbsMin

open Finset Real

variable {N : ℕ}

/-- The flow of one phase from its variables (1416-1431): between nothing and what remains if translated, else the variable but at least `1e-10`. -/
noncomputable def one (tr : Bool) (r v : Fin N → ℝ) : Fin N → ℝ := if tr then fun i => 0 + (r i - 0) / (1 + exp (-v i)) else fun i => if v i < 1e-10 then 1e-10 else v i

/-- The flows of all phases (1415-1444); the last gets what remains. -/
noncomputable def flows (tr : Bool) : (Fin N → ℝ) → List (Fin N → ℝ) → List (Fin N → ℝ)
  | r, [] => [r]
  | r, v :: vs => one tr r v :: flows tr (fun i => r i - one tr r v i) vs

/-- The variables of guessed flows (1386-1392). -/
noncomputable def basis : (Fin N → ℝ) → List (Fin N → ℝ) → List (Fin N → ℝ)
  | _, [] => []
  | r, g :: gs => (fun i => -log ((r i - g i) / (g i - 0))) :: basis (fun i => r i - g i) gs

/-- The fraction of a phase, `vs_sum` (1432, 1442). -/
noncomputable def beta (f : Fin N → ℝ) : ℝ := ∑ i, |f i|
/-- The composition of a phase (1433-1439), that of the feed if it has no flow. -/
noncomputable def comp (zs f : Fin N → ℝ) : Fin N → ℝ := if beta f = 0 then zs else fun i => |f i * (1 / beta f)| / ∑ j, |f j * (1 / beta f)|

/-- The contribution of a phase with coefficients `lnphi` to the objective (1457-1458). -/
noncomputable def gPhase (lnphi : (Fin N → ℝ) → Fin N → ℝ) (zs f : Fin N → ℝ) : ℝ := ∑ i, f i * (log (comp zs f i) + lnphi (comp zs f) i)

/-- The objective (1445-1459). -/
noncomputable def objective (lnphis : List ((Fin N → ℝ) → Fin N → ℝ)) (zs : Fin N → ℝ) (fs : List (Fin N → ℝ)) : ℝ := (List.zipWith (fun l f => gPhase l zs f) lnphis fs).sum

/-- The flows of all phases add up to the feed, whatever the variables. -/
theorem C128_balance (tr : Bool) (r : Fin N → ℝ) (vs : List (Fin N → ℝ)) (i : Fin N) : ((flows tr r vs).map fun f => f i).sum = r i := by
  induction vs generalizing r with
  | nil => simp [flows]
  | cons v vs ih => rw [flows, List.map_cons, List.sum_cons, ih]; ring

theorem one_bounds (r v : Fin N → ℝ) (hr : ∀ i, 0 < r i) (i : Fin N) : 0 < one true r v i ∧ one true r v i < r i := by
  have he := exp_pos (-v i)
  simp only [one, if_true, zero_add, sub_zero]
  refine ⟨div_pos (hr i) (by linarith), ?_⟩
  rw [div_lt_iff₀ (by linarith)]
  nlinarith [hr i]

theorem flows_pos (r : Fin N → ℝ) (hr : ∀ i, 0 < r i) (vs : List (Fin N → ℝ)) : ∀ f ∈ flows true r vs, ∀ i, 0 < f i := by
  induction vs generalizing r with
  | nil =>
    intro f hf
    simp only [flows, List.mem_singleton] at hf
    rw [hf]
    exact hr
  | cons v vs ih =>
    intro f hf
    rw [flows, List.mem_cons] at hf
    rcases hf with rfl | hf
    · exact fun i => (one_bounds r v hr i).1
    · exact ih _ (fun i => by linarith [(one_bounds r v hr i).2]) f hf

theorem beta_pos_eq (f : Fin N → ℝ) (hf : ∀ i, 0 < f i) : beta f = ∑ i, f i := Finset.sum_congr rfl fun i _ => abs_of_pos (hf i)

theorem comp_eq [NeZero N] (zs f : Fin N → ℝ) (hf : ∀ i, 0 < f i) : comp zs f = fun i => f i / ∑ j, f j := by
  have hb := beta_pos_eq f hf
  have hp : 0 < beta f := by
    rw [hb]
    exact Finset.sum_pos (fun i _ => hf i) ⟨0, Finset.mem_univ _⟩
  unfold comp
  rw [if_neg hp.ne']
  funext i
  have e : ∀ j, |f j * (1 / beta f)| = f j / beta f := by
    intro j
    rw [mul_one_div, abs_of_pos (div_pos (hf j) hp)]
  have e1 : ∑ j, |f j * (1 / beta f)| = 1 := by
    rw [Finset.sum_congr rfl fun j _ => e j, ← Finset.sum_div, ← hb, div_self hp.ne']
  rw [e i, e1, div_one, hb]

/-- With translated variables every phase has positive flows, the fractions add up to the feed, each composition sums to one, and flows are fractions times compositions. -/
theorem C128_translated [NeZero N] (zs : Fin N → ℝ) (hz : ∀ i, 0 < zs i) (vs : List (Fin N → ℝ)) : (∀ f ∈ flows true zs vs, (∀ i, 0 < f i) ∧ ∑ i, comp zs f i = 1 ∧ (∀ i, 0 < comp zs f i) ∧ ∀ i, f i = beta f * comp zs f i) ∧
    ((flows true zs vs).map beta).sum = ∑ i, zs i := by
  have hpos := flows_pos zs hz vs
  constructor
  · intro f hf
    have h := hpos f hf
    have hs : 0 < ∑ j, f j := Finset.sum_pos (fun i _ => h i) ⟨0, Finset.mem_univ _⟩
    rw [comp_eq zs f h, beta_pos_eq f h]
    refine ⟨h, ?_, fun i => div_pos (h i) hs, fun i => by field_simp⟩
    rw [← Finset.sum_div, div_self hs.ne']
  · have key : ∀ l : List (Fin N → ℝ), (∀ f ∈ l, ∀ i, 0 < f i) → (l.map beta).sum = ∑ i, (l.map fun f => f i).sum := by
      intro l
      induction l with
      | nil => intro _; simp
      | cons f l ih =>
        intro h
        simp only [List.map_cons, List.sum_cons]
        rw [ih (fun g hg => h g (by simp [hg])), beta_pos_eq f (h f (by simp)), Finset.sum_add_distrib]
    rw [key _ hpos]
    exact Finset.sum_congr rfl fun i _ => C128_balance true zs vs i

example : ∀ f ∈ flows true (fun _ : Fin 2 => (1 / 2 : ℝ)) [fun _ => 0], ∀ i, 0 < f i := flows_pos _ (fun _ => by norm_num) _

/-- Guessed flows that leave something of every component for the phases after them are recovered from their variables. -/
theorem C128_guess (r : Fin N → ℝ) (gs : List (Fin N → ℝ)) (h : ∀ g ∈ gs, ∀ i, 0 < g i) (hr : ∀ i, (gs.map fun g => g i).sum < r i) : flows true r (basis r gs) = gs ++ [fun i => r i - (gs.map fun g => g i).sum] := by
  induction gs generalizing r with
  | nil => simp [flows, basis]
  | cons g gs ih =>
    have hg := h g (by simp)
    have hrest : ∀ i, 0 ≤ (gs.map fun g => g i).sum := by
      intro i
      apply List.sum_nonneg
      intro x hx
      obtain ⟨g', hg', rfl⟩ := List.mem_map.1 hx
      exact (h g' (by simp [hg']) i).le
    have hlt : ∀ i, g i < r i := by
      intro i
      have := hr i
      rw [List.map_cons, List.sum_cons] at this
      linarith [hrest i]
    have e : one true r (fun i => -log ((r i - g i) / (g i - 0))) = g := by
      funext i
      have h1 := hg i
      have h2 := hlt i
      simp only [one, if_true, zero_add, sub_zero, neg_neg]
      rw [exp_log (div_pos (by linarith) h1)]
      have h3 : r i ≠ 0 := by linarith
      field_simp
      rw [add_sub_cancel]
      field_simp
    rw [basis, flows, e, ih _ (fun g' hg' => h g' (by simp [hg']))]
    · simp only [List.cons_append, List.map_cons, List.sum_cons]
      congr 3
      funext i
      ring
    · intro i
      have := hr i
      rw [List.map_cons, List.sum_cons] at this
      linarith

example : ∀ i : Fin 2, (([fun _ => (1 / 4 : ℝ)] : List (Fin 2 → ℝ)).map fun g => g i).sum < 1 / 2 := fun i => by norm_num

/-- Without translation flows can exceed the feed: the last phase then has a negative flow, its composition is that of the opposite flow, and the fractions add up to more than one. -/
theorem C128_untranslated_fails : ∃ f : List (Fin 1 → ℝ), f = flows false (fun _ => 1) [fun _ => 2] ∧ f = [fun _ => 2, fun _ => -1] ∧ (f.map beta).sum = 3 ∧ comp (fun _ => 1) (fun _ : Fin 1 => (-1 : ℝ)) 0 = 1 := by
  have e : flows false (fun _ : Fin 1 => (1 : ℝ)) [fun _ => 2] = [fun _ => 2, fun _ => -1] := by
    simp only [flows, one, Bool.false_eq_true, if_false]
    norm_num
  refine ⟨_, rfl, e, ?_, ?_⟩
  · rw [e]
    norm_num [beta]
  · norm_num [comp, beta]

/-- The objective is the sum over the phases of fraction times molar energy `Σ x (ln x + ln phi)`. -/
theorem C128_objective [NeZero N] (lnphi : (Fin N → ℝ) → Fin N → ℝ) (zs f : Fin N → ℝ) (hf : ∀ i, 0 < f i) : gPhase lnphi zs f = beta f * ∑ i, comp zs f i * (log (comp zs f i) + lnphi (comp zs f) i) := by
  have hs : 0 < ∑ j, f j := Finset.sum_pos (fun i _ => hf i) ⟨0, Finset.mem_univ _⟩
  unfold gPhase
  rw [Finset.mul_sum]
  apply Finset.sum_congr rfl
  intro i _
  rw [← mul_assoc]
  congr 1
  rw [comp_eq zs f hf, beta_pos_eq f hf]
  field_simp

example : gPhase (fun _ _ => 1) (fun _ : Fin 1 => 1) (fun _ => 2) = 2 := by norm_num [gPhase, comp, beta]

/-- The molar Gibbs energy of a phase: ideal gas values `gig`, and `RT` times the logarithms. -/
noncomputable def gMolar (lnphi : (Fin N → ℝ) → Fin N → ℝ) (gig : Fin N → ℝ) (RT : ℝ) (x : Fin N → ℝ) : ℝ := ∑ i, x i * (gig i + RT * (log (x i) + lnphi x i))

/-- The objective of `differential_evolution` (1451-1455, 1577): fractions times Gibbs energies of the phases. -/
noncomputable def objectiveReal (lnphis : List ((Fin N → ℝ) → Fin N → ℝ)) (gig : Fin N → ℝ) (RT : ℝ) (zs : Fin N → ℝ) (fs : List (Fin N → ℝ)) : ℝ := (List.zipWith (fun l f => gMolar l gig RT (comp zs f) * beta f) lnphis fs).sum

/-- Both objectives differ by a constant and the factor `RT`: they have the same minima. -/
theorem C128_real [NeZero N] (lnphis : List ((Fin N → ℝ) → Fin N → ℝ)) (gig : Fin N → ℝ) (RT : ℝ) (zs : Fin N → ℝ) (hz : ∀ i, 0 < zs i) (vs : List (Fin N → ℝ)) (hl : lnphis.length = (flows true zs vs).length) :
    objectiveReal lnphis gig RT zs (flows true zs vs) = ∑ i, zs i * gig i + RT * objective lnphis zs (flows true zs vs) := by
  have key : ∀ (l : List ((Fin N → ℝ) → Fin N → ℝ)) (fs : List (Fin N → ℝ)), l.length = fs.length → (∀ f ∈ fs, ∀ i, 0 < f i) →
      objectiveReal l gig RT zs fs = ∑ i, (fs.map fun f => f i).sum * gig i + RT * objective l zs fs := by
    intro l
    induction l with
    | nil =>
      intro fs hlen _
      have : fs = [] := List.length_eq_zero_iff.1 hlen.symm
      subst this
      simp [objectiveReal, objective]
    | cons a l ih =>
      intro fs hlen hp
      match fs with
      | [] => simp at hlen
      | f :: fs =>
        have ih' := ih fs (by simpa using hlen) (fun g hg => hp g (by simp [hg]))
        have hf := hp f (by simp)
        have hs : 0 < ∑ j, f j := Finset.sum_pos (fun i _ => hf i) ⟨0, Finset.mem_univ _⟩
        have e1 : gMolar a gig RT (comp zs f) * beta f = ∑ i, f i * gig i + RT * gPhase a zs f := by
          unfold gMolar gPhase
          rw [Finset.sum_mul, Finset.mul_sum, ← Finset.sum_add_distrib]
          apply Finset.sum_congr rfl
          intro i _
          have hc : f i = comp zs f i * beta f := by
            rw [comp_eq zs f hf, beta_pos_eq f hf]
            field_simp
          generalize log (comp zs f i) + a (comp zs f) i = w
          rw [hc]
          ring
        have e2 : objectiveReal (a :: l) gig RT zs (f :: fs) = gMolar a gig RT (comp zs f) * beta f + objectiveReal l gig RT zs fs := by simp [objectiveReal]
        have e3 : objective (a :: l) zs (f :: fs) = gPhase a zs f + objective l zs fs := by simp [objective]
        rw [e2, e3, e1, ih']
        simp only [List.map_cons, List.sum_cons, add_mul, Finset.sum_add_distrib]
        ring
  rw [key lnphis _ hl (flows_pos zs hz vs)]
  congr 1
  exact Finset.sum_congr rfl fun i _ => by rw [C128_balance]

example : ([fun _ => ![(1 : ℝ), 2], fun _ => ![0, 0]] : List ((Fin 2 → ℝ) → Fin 2 → ℝ)).length = (flows true (fun _ : Fin 2 => (1 / 2 : ℝ)) [fun _ => 0]).length := rfl

/-! ## At a minimum the fugacities are equal -/

/-- The chemical potentials of a phase are the derivatives of its contribution: what the Gibbs-Duhem equation says about the fugacity coefficients. -/
def Consistent (lnphi : (Fin N → ℝ) → Fin N → ℝ) (zs : Fin N → ℝ) : Prop :=
  ∀ f : Fin N → ℝ, (∀ i, 0 < f i) → ∀ i, HasDerivAt (fun t => gPhase lnphi zs (Function.update f i t)) (log (comp zs f i) + lnphi (comp zs f) i) (f i)

/-- If the variables minimise the objective of two phases, every component has the same fugacity in both. -/
theorem C128_equal_fugacities [NeZero N] (l0 l1 : (Fin N → ℝ) → Fin N → ℝ) (zs : Fin N → ℝ) (hz : ∀ i, 0 < zs i) (h0 : Consistent l0 zs) (h1 : Consistent l1 zs) (v : Fin N → ℝ)
    (hmin : ∀ w : Fin N → ℝ, objective [l0, l1] zs (flows true zs [v]) ≤ objective [l0, l1] zs (flows true zs [w])) (i : Fin N) :
    ∃ f g, flows true zs [v] = [f, g] ∧ log (comp zs f i) + l0 (comp zs f) i = log (comp zs g i) + l1 (comp zs g) i := by
  set f := one true zs v with hf
  set g : Fin N → ℝ := fun i => zs i - f i with hg
  have e : flows true zs [v] = [f, g] := rfl
  have fp : ∀ j, 0 < f j := fun j => (one_bounds zs v hz j).1
  have fl : ∀ j, f j < zs j := fun j => (one_bounds zs v hz j).2
  have gp : ∀ j, 0 < g j := fun j => by
    have := fl j
    simp only [hg]
    linarith
  refine ⟨f, g, e, ?_⟩
  have hle : ∀ f' : Fin N → ℝ, (∀ j, 0 < f' j) → (∀ j, f' j < zs j) → gPhase l0 zs f + gPhase l1 zs g ≤ gPhase l0 zs f' + gPhase l1 zs (fun j => zs j - f' j) := by
    intro f' hp hl
    obtain ⟨w, hw⟩ : ∃ w, flows true zs [w] = [f', fun j => zs j - f' j] := by
      have := C128_guess zs [f'] (by simpa using hp) (by simpa using hl)
      simp only [List.map_cons, List.map_nil, List.sum_cons, List.sum_nil, add_zero, List.cons_append, List.nil_append] at this
      exact ⟨_, this⟩
    have := hmin w
    rw [e, hw] at this
    simpa [objective] using this
  have d0 := h0 f fp i
  have d1 := h1 g gp i
  have dsub : HasDerivAt (fun t : ℝ => zs i - t) (-1) (f i) := ((hasDerivAt_const (f i) (zs i)).fun_sub (hasDerivAt_id (f i))).congr_deriv (by norm_num)
  have dc : HasDerivAt (fun t => gPhase l1 zs (Function.update g i (zs i - t))) ((log (comp zs g i) + l1 (comp zs g) i) * (-1)) (f i) := by
    have h2 : HasDerivAt (fun t => gPhase l1 zs (Function.update g i t)) (log (comp zs g i) + l1 (comp zs g) i) (zs i - f i) := d1
    exact h2.comp (f i) dsub
  have dt := d0.fun_add dc
  have hloc : IsLocalMin (fun t => gPhase l0 zs (Function.update f i t) + gPhase l1 zs (Function.update g i (zs i - t))) (f i) := by
    have hev : ∀ᶠ t in nhds (f i), t ∈ Set.Ioo 0 (zs i) := Ioo_mem_nhds (fp i) (fl i)
    filter_upwards [hev] with t ht
    have e1 : Function.update f i (f i) = f := Function.update_eq_self i f
    have e2 : Function.update g i (zs i - f i) = g := Function.update_eq_self i g
    rw [e1, e2]
    have e3 : Function.update g i (zs i - t) = fun j => zs j - Function.update f i t j := by
      funext j
      by_cases hj : j = i
      · subst hj; simp
      · simp [Function.update_of_ne hj, hg]
    rw [e3]
    apply hle
    · intro j
      by_cases hj : j = i
      · subst hj; simpa using ht.1
      · simpa [Function.update_of_ne hj] using fp j
    · intro j
      by_cases hj : j = i
      · subst hj; simpa using ht.2
      · simpa [Function.update_of_ne hj] using fl j
  have := hloc.hasDerivAt_eq_zero dt
  linarith

/-- Phases with constant fugacity coefficients satisfy the assumption. -/
theorem consistent_const [NeZero N] (c zs : Fin N → ℝ) : Consistent (fun _ => c) zs := by
  intro f hf i
  have hs : 0 < ∑ j, f j := Finset.sum_pos (fun i _ => hf i) ⟨0, Finset.mem_univ _⟩
  have hsum : ∀ t, ∑ j, Function.update f i t j = t + ∑ j ∈ univ.erase i, f j := by
    intro t
    rw [← Finset.add_sum_erase _ _ (Finset.mem_univ i), Function.update_self]
    congr 1
    exact Finset.sum_congr rfl fun j hj => Function.update_of_ne (Finset.ne_of_mem_erase hj) t f
  have hS : ∑ j, f j = f i + ∑ j ∈ univ.erase i, f j := by
    have := hsum (f i)
    rwa [Function.update_eq_self] at this
  set R := ∑ j ∈ univ.erase i, f j with hR
  have hSp : 0 < f i + R := by rw [← hS]; exact hs
  have hev : ∀ᶠ t in nhds (f i), gPhase (fun _ => c) zs (Function.update f i t) = t * (log t - log (t + R) + c i) + ∑ j ∈ univ.erase i, f j * (log (f j) - log (t + R) + c j) := by
    filter_upwards [Ioi_mem_nhds (hf i)] with t ht
    have hup : ∀ j, 0 < Function.update f i t j := by
      intro j
      by_cases hj : j = i
      · subst hj; simpa using ht
      · simpa [Function.update_of_ne hj] using hf j
    have hRn : 0 ≤ R := Finset.sum_nonneg fun j _ => (hf j).le
    have htR : 0 < t + R := by have : 0 < t := ht; linarith
    unfold gPhase
    rw [comp_eq zs _ hup, hsum t, ← Finset.add_sum_erase _ _ (Finset.mem_univ i)]
    dsimp only
    rw [Function.update_self, log_div (ne_of_gt ht) htR.ne']
    congr 1
    apply Finset.sum_congr rfl
    intro j hj
    rw [Function.update_of_ne (Finset.ne_of_mem_erase hj), log_div (hf j).ne' htR.ne']
  refine HasDerivAt.congr_of_eventuallyEq ?_ hev
  have dl : HasDerivAt (fun t => log (t + R)) (1 / (f i + R)) (f i) := by
    have := ((hasDerivAt_id (f i)).add_const R).log hSp.ne'
    simpa using this
  have d1 : HasDerivAt (fun t : ℝ => t * (log t - log (t + R) + c i)) (1 * (log (f i) - log (f i + R) + c i) + f i * ((f i)⁻¹ - 1 / (f i + R))) (f i) :=
    (hasDerivAt_id (f i)).fun_mul (((hasDerivAt_log (hf i).ne').fun_sub dl).add_const (c i))
  have d2 : HasDerivAt (fun t : ℝ => ∑ j ∈ univ.erase i, f j * (log (f j) - log (t + R) + c j)) (∑ j ∈ univ.erase i, f j * (0 - 1 / (f i + R))) (f i) := by
    apply HasDerivAt.fun_sum
    intro j _
    exact (((hasDerivAt_const (f i) (log (f j))).fun_sub dl).add_const (c j)).const_mul (f j)
  refine (d1.fun_add d2).congr_deriv ?_
  rw [comp_eq zs f hf, ← Finset.sum_mul, ← hR]
  dsimp only
  rw [hS, log_div (hf i).ne' hSp.ne']
  have := (hf i).ne'
  field_simp
  ring

example : Consistent (fun _ => ![(1 : ℝ), 2]) (fun _ : Fin 2 => (1 / 2 : ℝ)) := consistent_const _ _

/-! ## The result -/

/-- The record of the best point (1516-1521): values of the objective at the points evaluated, in order. -/
noncomputable def best {P : Type} (evals : List (ℝ × P)) : ℝ × Option (ℝ × P) → ℝ × Option (ℝ × P) := fun s => evals.foldl (fun s e => open Classical in if e.1 < s.1 then (e.1, some e) else s) s

/-- What is returned: the best point, with an error if none was recorded (1617). -/
noncomputable def result {P : Type} (evals : List (ℝ × P)) : Option (ℝ × P) := (best evals (1e100, none)).2

theorem best_spec {P : Type} (evals : List (ℝ × P)) (s : ℝ × Option (ℝ × P)) (hs : ∀ e, s.2 = some e → s.1 = e.1) :
    (∀ e, (best evals s).2 = some e → (best evals s).1 = e.1) ∧ (best evals s).1 ≤ s.1 ∧ (∀ e ∈ evals, (best evals s).1 ≤ e.1) ∧ ((best evals s) = s ∨ ∃ e ∈ evals, (best evals s).2 = some e ∧ e.1 < s.1) := by
  induction evals generalizing s with
  | nil => exact ⟨hs, le_rfl, by simp, Or.inl rfl⟩
  | cons e l ih =>
    have e0 : best (e :: l) s = best l (open Classical in if e.1 < s.1 then (e.1, some e) else s) := rfl
    rw [e0]
    by_cases h : e.1 < s.1
    · rw [if_pos h]
      obtain ⟨i1, i2, i3, i4⟩ := ih (e.1, some e) (by intro x hx; simp only [Option.some.injEq] at hx; rw [← hx])
      refine ⟨i1, le_trans i2 h.le, ?_, Or.inr ?_⟩
      · intro x hx
        rcases List.mem_cons.1 hx with rfl | hx
        · exact i2
        · exact i3 x hx
      · rcases i4 with i4 | ⟨x, hx, hb, hlt⟩
        · exact ⟨e, by simp, by rw [i4], h⟩
        · exact ⟨x, by simp [hx], hb, lt_trans hlt h⟩
    · rw [if_neg h]
      obtain ⟨i1, i2, i3, i4⟩ := ih s hs
      refine ⟨i1, i2, ?_, ?_⟩
      · intro x hx
        rcases List.mem_cons.1 hx with rfl | hx
        · exact le_trans i2 (not_lt.1 h)
        · exact i3 x hx
      · rcases i4 with i4 | ⟨x, hx, hb, hlt⟩
        · exact Or.inl i4
        · exact Or.inr ⟨x, by simp [hx], hb, hlt⟩

/-- The point returned is one that was evaluated, with the lowest objective of all; and there is one unless all are `1e100` or more. -/
theorem C128_result {P : Type} (evals : List (ℝ × P)) : (∀ e, result evals = some e → e ∈ evals ∧ ∀ x ∈ evals, e.1 ≤ x.1) ∧ (result evals = none ↔ ∀ x ∈ evals, 1e100 ≤ x.1) := by
  obtain ⟨i1, i2, i3, i4⟩ := best_spec evals ((1e100 : ℝ), (none : Option (ℝ × P))) (by intro e he; simp at he)
  constructor
  · intro e he
    have he' : (best evals (1e100, none)).2 = some e := he
    refine ⟨?_, fun x hx => ?_⟩
    · rcases i4 with i4 | ⟨x, hx, hb, _⟩
      · rw [i4] at he'; simp at he'
      · rw [hb, Option.some.injEq] at he'
        rw [← he']
        exact hx
    · rw [← i1 e he']
      exact i3 x hx
  · constructor
    · intro hn x hx
      rcases i4 with i4 | ⟨y, hy, hb, _⟩
      · have := i3 x hx
        rw [i4] at this
        exact this
      · have hn' : (best evals (1e100, none)).2 = none := hn
        rw [hb] at hn'
        simp at hn'
    · intro h
      rcases i4 with i4 | ⟨y, hy, hb, hlt⟩
      · show (best evals (1e100, none)).2 = none
        rw [i4]
      · exact absurd hlt (not_lt.2 (h y hy))

example : result [((3 : ℝ), "a"), (1, "b"), (2, "c")] = some (1, "b") := by
  norm_num [result, best]

/-- An evaluation as the minimisers call it (1485-1510): with gradients, which all but `differential_evolution` ask for (1591-1600), a list of flows is indexed twice, `flows[k][i]`. -/
def evaluate (method : String) (phaseCount : ℕ) (G : ℚ) : Except String ℚ := if method ≠ "differential_evolution" ∧ 2 ≤ phaseCount ∧ 0 < N then .error "TypeError" else .ok G

/-- With the default method, and every other that uses gradients, two or more phases always raise a `TypeError`; `differential_evolution` does not. -/
theorem C128_default_fails (phaseCount : ℕ) (h : 2 ≤ phaseCount) (hN : 0 < N) (G : ℚ) : evaluate (N := N) "L-BFGS-B" phaseCount G = .error "TypeError" ∧ evaluate (N := N) "newton_minimize" phaseCount G = .error "TypeError" ∧
    evaluate (N := N) "differential_evolution" phaseCount G = .ok G := by
  refine ⟨if_pos ⟨by decide, h, hN⟩, if_pos ⟨by decide, h, hN⟩, if_neg fun hh => hh.1 rfl⟩

/-! ## Bounded dew and bubble points -/

/-- The flash returned by `dew_bubble_bounded_naive` (1767-1772): the last one evaluated that is not flat, the first one evaluated if all are; `none` if there is none (an unbound name). -/
def picked (check : ℚ → ℚ) (flat : ℚ) (store : List ℚ) : Option (ℚ × ℚ) :=
  match store.reverse.find? (fun r => check r ≠ flat) with
  | some r => some (r, check r)
  | none => store.head?.map fun r => (r, check r)

/-- A point returned was evaluated, and if any was on the side of the boundary where the error means something, so is it, and it is the last such. -/
theorem C128_picked_partial (check : ℚ → ℚ) (flat : ℚ) (store : List ℚ) (r e : ℚ) (h : picked check flat store = some (r, e)) : r ∈ store ∧ e = check r ∧ ((∃ x ∈ store, check x ≠ flat) → check r ≠ flat) := by
  unfold picked at h
  cases hf : store.reverse.find? (fun r => check r ≠ flat) with
  | some x =>
    rw [hf] at h
    simp only [Option.some.injEq, Prod.mk.injEq] at h
    obtain ⟨rfl, rfl⟩ := h
    refine ⟨List.mem_reverse.1 (List.mem_of_find?_eq_some hf), rfl, fun _ => ?_⟩
    simpa using List.find?_some hf
  | none =>
    rw [hf] at h
    simp only [Option.map_eq_some_iff, Prod.mk.injEq] at h
    obtain ⟨x, hx, rfl, rfl⟩ := h
    refine ⟨List.mem_of_head? hx, rfl, ?_⟩
    rintro ⟨y, hy, hne⟩
    have := List.find?_eq_none.1 hf y (List.mem_reverse.2 hy)
    simp only [ne_eq, decide_not, Bool.not_eq_eq_eq_not, Bool.not_true, Bool.not_eq_false, decide_eq_true_eq] at this
    exact absurd this hne

example : picked (fun r => if r < 3 then -1 else r - 5) (-1) [2, 6, 5, 1] = some (5, 0) := by decide +kernel

/-- If every flash was on the flat side, which means that no dew or bubble point was found, the first of them is returned as one. -/
theorem C128_picked_fails : picked (fun r => if r < 3 then -1 else r - 5) (-1) [2, 1] = some (2, -1) := by decide +kernel

end Verif.GibbsMin
