import Mathlib.Algebra.BigOperators.Field
import Verif.Eos.MixRule

/-!
# C106: stored attraction terms of a mixture and states derived from it

`thermo/eos_mix.py`: `GCEOSMIX.subset` (376-398), `to_TP_zs_fast` (519-551), `to_TP_zs` (596-599), `Psat` (972-988), `a_alpha_and_derivatives`
(1042-1079), `_eos_lnphis_lowest_Gibbs` (1501-1513), `_eos_fugacities_lowest_Gibbs` (1516-1529), `_dphi_dn`, `_dfugacity_dn` (1532-1558);
`thermo/eos.py`: the part of `GCEOS.solve` concerning attraction terms (1150-1156), the calls of `a_alpha_and_derivatives` at
another temperature (2920, 3139, 3234, 3321, 3346, 3390, 3929; eos_mix.py 1312).

An object is its temperature, pressure, composition and the stored attraction terms: those of the pure components with their roots and
derivatives (which may be absent), the row sums, and those of the mixture. The evaluators of the mixing rule are the models of C38. `none`
as a result is an exception. Volumes and everything computed from them are not part of this model; the attributes copied by
`_fast_init_specific` do not depend on temperature.
-/

namespace Verif.MixState

open Verif.MixRule Finset Filter Topology

/-- The components: number, `1 - k_ij`, attraction terms with two derivatives by temperature. -/
structure Comps where
  /-- `N` -/
  N : ℕ
  /-- `one_minus_kijs` -/
  omk : ℕ → ℕ → ℝ
  /-- `a_alphas` -/
  A : ℕ → ℝ → ℝ
  /-- `da_alpha_dTs` -/
  A1 : ℕ → ℝ → ℝ
  /-- `d2a_alpha_dT2s` -/
  A2 : ℕ → ℝ → ℝ

/-- A mixture object. -/
structure Mix where
  /-- `T` -/
  T : ℝ
  /-- `P` -/
  P : ℝ
  /-- `zs` -/
  zs : ℕ → ℝ
  /-- `a_alphas` -/
  as : Option (ℕ → ℝ)
  /-- `a_alpha_roots` -/
  roots : Option (ℕ → ℝ)
  /-- `da_alpha_dTs` -/
  das : Option (ℕ → ℝ)
  /-- `d2a_alpha_dT2s` -/
  d2as : Option (ℕ → ℝ)
  /-- `a_alpha_j_rows` -/
  rows : Option (ℕ → ℝ)
  /-- `a_alpha` -/
  a : ℝ
  /-- `da_alpha_dT` -/
  da : ℝ
  /-- `d2a_alpha_dT2` -/
  d2a : ℝ

/-- `a_alpha_and_derivatives`, the pure components (1042-1062). -/
noncomputable def pures (c : Comps) (o : Mix) (T : ℝ) (full pure : Bool) : Mix :=
  if pure then
    let o1 := if full then { o with as := some fun i => c.A i T, das := some fun i => c.A1 i T, d2as := some fun i => c.A2 i T }
      else { o with as := some fun i => c.A i T }
    { o1 with roots := some fun i => √(c.A i T) }
  else if o.as.isSome && o.das.isSome && o.d2as.isSome then o
  else if full then { o with as := some fun i => c.A i T, das := some fun i => c.A1 i T, d2as := some fun i => c.A2 i T }
  else { o with as := some fun i => c.A i T }

/-- `a_alpha_and_derivatives`, the mixture (1064-1079); the derivatives are only returned if `full`. -/
noncomputable def mixed (c : Comps) (o : Mix) (full : Bool) : Option (Mix × ℝ × ℝ × ℝ) :=
  match full, o.as, o.roots, o.das, o.d2as with
  | true, some a, some r, some a1, some a2 =>
    let q := quadDeriv c.N a r a1 a2 o.zs c.omk
    some ({ o with rows := some q.rows }, q.a, q.da, q.d2a)
  | false, some a, some r, _, _ =>
    let q := quadTerms c.N a r o.zs c.omk
    some ({ o with rows := some q.2 }, q.1, 0, 0)
  | _, _, _, _, _ => none

/-- `a_alpha_and_derivatives(T, full, pure_a_alphas)`. -/
noncomputable def aad (c : Comps) (o : Mix) (T : ℝ) (full pure : Bool) : Option (Mix × ℝ × ℝ × ℝ) := mixed c (pures c o T full pure) full

/-- `solve` (1151-1155) for an object with temperature and pressure. -/
noncomputable def solve (c : Comps) (o : Mix) (full pure : Bool) : Option Mix :=
  (aad c o o.T full pure).map fun r =>
    if full then { r.1 with a := r.2.1, da := r.2.2.1, d2a := r.2.2.2 } else { r.1 with a := r.2.1, da := -5e-3, d2a := 1.5e-5 }

/-- A new object without stored terms. -/
def blank (T P : ℝ) (zs : ℕ → ℝ) : Mix := ⟨T, P, zs, none, none, none, none, none, 0, 0, 0⟩

/-- The constructor. -/
noncomputable def make (c : Comps) (T P : ℝ) (zs : ℕ → ℝ) : Option Mix := solve c (blank T P zs) true true

/-- The copied terms (535-542): `a_alphas`, then inside `try` the roots and the derivatives, in this order. -/
def copied (o new : Mix) : Mix :=
  let n1 := { new with as := o.as }
  match o.roots, o.das, o.d2as with
  | none, _, _ => n1
  | some r, none, _ => { n1 with roots := some r }
  | some r, some d, none => { n1 with roots := some r, das := some d }
  | some r, some d, some e => { n1 with roots := some r, das := some d, d2as := some e }

/-- `to_TP_zs_fast` (519-551). -/
noncomputable def fast (c : Comps) (o : Mix) (T P : ℝ) (zs : ℕ → ℝ) (full : Bool) : Option Mix :=
  open Classical in
  if T = o.T then (if o.as.isSome then solve c (copied o (blank T P zs)) full false else none)
  else solve c (blank T P zs) full true

/-- What a call of `a_alpha_and_derivatives` at some temperature leaves behind: the object after `Psat`, `phi_sat`, `V_l_sat`, `Hvap`,
`discriminant`, `mechanical_critical_point`, `dPsat_dT` (unpolished) or a direct call. -/
noncomputable def touch (c : Comps) (o : Mix) (T : ℝ) (full : Bool) : Option Mix := (aad c o T full true).map Prod.fst

/-! ### The stored terms belong to the temperature of the object -/

/-- The stored terms are those of the object's own temperature. -/
structure Fresh (c : Comps) (o : Mix) : Prop where
  as : o.as = some fun i => c.A i o.T
  roots : o.roots = some fun i => √(c.A i o.T)
  das : o.das = none ∨ o.das = some fun i => c.A1 i o.T
  d2as : o.d2as = none ∨ o.d2as = some fun i => c.A2 i o.T

/-- Well behaved components. -/
structure Comps.Ok (c : Comps) : Prop where
  pos : ∀ i T, 0 < T → 0 < c.A i T
  d1 : ∀ i T, 0 < T → HasDerivAt (c.A i) (c.A1 i T) T
  d2 : ∀ i T, 0 < T → HasDerivAt (c.A1 i) (c.A2 i T) T
  sym : Sym c.omk
  self : ∀ i, c.omk i i = 1

/-- The attraction of the mixture by temperature (specification). -/
noncomputable def attraction (c : Comps) (zs : ℕ → ℝ) (T : ℝ) : ℝ := mix c.N (fun i => c.A i T) c.omk zs

/-- The object has the attraction terms of the mixture at its temperature and composition. -/
structure Right (c : Comps) (o : Mix) (full : Bool) : Prop where
  value : o.a = attraction c o.zs o.T
  first : full = true → HasDerivAt (attraction c o.zs) o.da o.T
  second : full = true → ∃ d : ℝ → ℝ, (∀ᶠ t in 𝓝 o.T, HasDerivAt (attraction c o.zs) (d t) t) ∧ HasDerivAt d o.d2a o.T
  rows : ∃ r, o.rows = some r ∧ ∀ k < c.N, o.zs k ≠ 0 → r k = ∑ j ∈ range c.N, o.zs j * pair (fun i => c.A i o.T) c.omk k j

variable {c : Comps} {o : Mix}

theorem solve_right (hc : c.Ok) {T P : ℝ} {zs : ℕ → ℝ} (hT : 0 < T) (n : Mix) (hn : n.T = T ∧ n.P = P ∧ n.zs = zs) (full pure : Bool)
    (h : (pure = true ∧ n.das = none ∧ n.d2as = none) ∨ Fresh c n) :
    ∃ o', solve c n full pure = some o' ∧ o'.T = T ∧ o'.P = P ∧ o'.zs = zs ∧ Fresh c o' ∧ Right c o' full := by
  obtain ⟨rfl, rfl, rfl⟩ := hn
  have hpos := fun i => hc.pos i n.T hT
  have hcomb := C38_combined (N := c.N) (a := fun i => c.A i n.T) (r := fun i => √(c.A i n.T)) (a1 := fun i => c.A1 i n.T)
    (a2 := fun i => c.A2 i n.T) (z := n.zs) hpos (fun _ => rfl) hc.sym hc.self
  have hd1 : ∀ i, ∀ᶠ t in 𝓝 n.T, HasDerivAt (c.A i) (c.A1 i t) t := fun i => by
    filter_upwards [lt_mem_nhds hT] with t ht using hc.d1 i t ht
  have hder := C38_mixture_derivatives (omk := c.omk) hpos hd1 (fun i => hc.d2 i n.T hT) c.N n.zs
  have hq := C38_quadratic (N := c.N) (a := fun i => c.A i n.T) (r := fun i => √(c.A i n.T)) (z := n.zs) (omk := c.omk)
    (fun i => (hpos i).le) (fun _ => rfl) hc.sym
  -- the pure components after the first step
  have key : ∃ n', pures c n n.T full pure = n' ∧ n'.T = n.T ∧ n'.P = n.P ∧ n'.zs = n.zs ∧ Fresh c n' ∧
      (full = true → n'.das = some (fun i => c.A1 i n.T) ∧ n'.d2as = some (fun i => c.A2 i n.T)) := by
    refine ⟨_, rfl, ?_⟩
    rcases h with ⟨rfl, h1, h2⟩ | h
    · cases full
      · exact ⟨rfl, rfl, rfl, ⟨rfl, rfl, Or.inl h1, Or.inl h2⟩, by simp⟩
      · exact ⟨rfl, rfl, rfl, ⟨rfl, rfl, Or.inr rfl, Or.inr rfl⟩, fun _ => ⟨rfl, rfl⟩⟩
    · cases pure
      · by_cases hall : (n.as.isSome && n.das.isSome && n.d2as.isSome) = true
        · simp only [pures, Bool.false_eq_true, if_false, if_pos hall]
          refine ⟨trivial, trivial, trivial, h, fun _ => ?_⟩
          simp only [Bool.and_eq_true] at hall
          constructor
          · rcases h.das with h3 | h3
            · rw [h3] at hall; simp at hall
            · exact h3
          · rcases h.d2as with h3 | h3
            · rw [h3] at hall; simp at hall
            · exact h3
        · simp only [pures, Bool.false_eq_true, if_false, if_neg hall]
          cases full
          · exact ⟨rfl, rfl, rfl, ⟨rfl, h.roots, h.das, h.d2as⟩, by simp⟩
          · exact ⟨rfl, rfl, rfl, ⟨rfl, h.roots, Or.inr rfl, Or.inr rfl⟩, fun _ => ⟨rfl, rfl⟩⟩
      · cases full
        · exact ⟨rfl, rfl, rfl, ⟨rfl, rfl, h.das, h.d2as⟩, by simp⟩
        · exact ⟨rfl, rfl, rfl, ⟨rfl, rfl, Or.inr rfl, Or.inr rfl⟩, fun _ => ⟨rfl, rfl⟩⟩
  obtain ⟨n', e0, eT, eP, ez, hf, hd⟩ := key
  have fa := hf.as
  have fr := hf.roots
  rw [eT] at fa fr
  cases full
  · refine ⟨{ n' with
      rows := some (quadTerms c.N (fun i => c.A i n.T) (fun i => √(c.A i n.T)) n.zs c.omk).2
      a := (quadTerms c.N (fun i => c.A i n.T) (fun i => √(c.A i n.T)) n.zs c.omk).1
      da := -5e-3
      d2a := 1.5e-5 }, ?_, eT, eP, ez, ⟨hf.as, hf.roots, hf.das, hf.d2as⟩, ?_, by simp, by simp, ?_⟩
    · simp only [solve, aad, e0, mixed, fa, fr, Option.map_some, Bool.false_eq_true, if_false, ez]
    · simp only [attraction, hq, eT, ez]
    · refine ⟨_, rfl, fun k hk _ => ?_⟩
      simp only [eT, ez]
      exact C39_quadratic_rows (fun i => (hpos i).le) (fun _ => rfl) hc.sym hk
  · obtain ⟨h1, h2⟩ := hd rfl
    refine ⟨{ n' with
      rows := some (quadDeriv c.N (fun i => c.A i n.T) (fun i => √(c.A i n.T)) (fun i => c.A1 i n.T) (fun i => c.A2 i n.T) n.zs c.omk).rows
      a := (quadDeriv c.N (fun i => c.A i n.T) (fun i => √(c.A i n.T)) (fun i => c.A1 i n.T) (fun i => c.A2 i n.T) n.zs c.omk).a
      da := (quadDeriv c.N (fun i => c.A i n.T) (fun i => √(c.A i n.T)) (fun i => c.A1 i n.T) (fun i => c.A2 i n.T) n.zs c.omk).da
      d2a := (quadDeriv c.N (fun i => c.A i n.T) (fun i => √(c.A i n.T)) (fun i => c.A1 i n.T) (fun i => c.A2 i n.T) n.zs c.omk).d2a },
      ?_, eT, eP, ez, ⟨hf.as, hf.roots, hf.das, hf.d2as⟩, ?_, fun _ => ?_, fun _ => ?_, ?_⟩
    · simp only [solve, aad, e0, mixed, fa, fr, h1, h2, Option.map_some, if_true, ez]
    · simp only [attraction, hcomb.1, eT, ez]
    · simp only [hcomb.2.1, eT, ez]
      exact hder.1.self_of_nhds
    · simp only [hcomb.2.2, eT, ez]
      exact ⟨_, hder.1, hder.2⟩
    · refine ⟨_, rfl, fun k hk hz => ?_⟩
      simp only [eT, ez] at hz ⊢
      exact (C39_combined_rows hpos (fun _ => rfl) hc.sym hc.self hk hz).1

/-- **C106.** The constructor stores the attraction terms of the mixture at its temperature and composition, with their derivatives and row
sums. -/
theorem C106_make (hc : c.Ok) {T P : ℝ} {zs : ℕ → ℝ} (hT : 0 < T) :
    ∃ o, make c T P zs = some o ∧ o.T = T ∧ o.P = P ∧ o.zs = zs ∧ Fresh c o ∧ Right c o true :=
  solve_right hc hT (blank T P zs) ⟨rfl, rfl, rfl⟩ true true (Or.inl ⟨rfl, rfl, rfl⟩)

/-- **C106.** `to_TP_zs_fast` from an object whose stored terms belong to its temperature: the same or another temperature, pressure and
composition, with or without derivatives, the new object has the right attraction terms, and its stored terms belong to its temperature. -/
theorem C106_fast (hc : c.Ok) (hf : Fresh c o) {T P : ℝ} {zs : ℕ → ℝ} (hT : 0 < T) (full : Bool) :
    ∃ o', fast c o T P zs full = some o' ∧ o'.T = T ∧ o'.P = P ∧ o'.zs = zs ∧ Fresh c o' ∧ Right c o' full := by
  unfold fast
  by_cases h : T = o.T
  · rw [if_pos h, hf.as]
    simp only [Option.isSome_some, if_true]
    have hcp : (copied o (blank T P zs)).T = T ∧ (copied o (blank T P zs)).P = P ∧ (copied o (blank T P zs)).zs = zs
        ∧ Fresh c (copied o (blank T P zs)) := by
      unfold copied
      rw [hf.roots, hf.as, ← h]
      rcases hf.das with h1 | h1 <;> rcases hf.d2as with h2 | h2 <;> rw [h1, h2] <;> (try rw [← h]) <;>
        exact ⟨rfl, rfl, rfl, rfl, rfl, by simp [blank], by simp [blank]⟩
    exact solve_right hc hT _ ⟨hcp.1, hcp.2.1, hcp.2.2.1⟩ full false (Or.inr hcp.2.2.2)
  · rw [if_neg h]
    exact solve_right hc hT (blank T P zs) ⟨rfl, rfl, rfl⟩ full true (Or.inl ⟨rfl, rfl, rfl⟩)

/-- Two components with attractions `t + 1` and `t + 4`. -/
noncomputable def demo : Comps := ⟨2, demoOmk, fun i t => t + (1 + 3 * i), fun _ _ => 1, fun _ _ => 0⟩

theorem demo_ok : demo.Ok := by
  refine ⟨fun i T hT => ?_, fun i T _ => (hasDerivAt_id' T).add_const _, fun _ _ _ => hasDerivAt_const _ _, demo_sym, fun i => by simp [demo, demoOmk]⟩
  simp only [demo]; positivity

example : ∃ o o', make demo 1 1 (fun _ => 1 / 2) = some o ∧ fast demo o 1 2 (fun i => i) true = some o' ∧ Right demo o' true ∧ o'.a = 5 := by
  obtain ⟨o, h1, h2, -, -, h3, -⟩ := C106_make demo_ok (T := 1) (P := 1) (zs := fun _ => 1 / 2) one_pos
  obtain ⟨o', k1, k2, -, k3, -, k4⟩ := C106_fast demo_ok h3 (T := 1) (P := 2) (zs := fun i => i) one_pos true
  refine ⟨o, o', h1, k1, k4, ?_⟩
  rw [k4.value, k2, k3]
  norm_num [attraction, mix, pair, demo, demoOmk, sum_range_succ]

/-- **C106.** Evaluating attraction terms at the temperature of the object itself changes nothing that matters. -/
theorem C106_touch_same (hf : Fresh c o) (full : Bool) : ∃ o', touch c o o.T full = some o' ∧ Fresh c o' ∧ o'.T = o.T ∧ o'.a = o.a := by
  cases full
  · exact ⟨_, rfl, ⟨rfl, rfl, hf.das, hf.d2as⟩, rfl, rfl⟩
  · exact ⟨_, rfl, ⟨rfl, rfl, Or.inr rfl, Or.inr rfl⟩, rfl, rfl⟩

/-- One component with the attraction `t²`. -/
noncomputable def square : Comps := ⟨1, fun _ _ => 1, fun _ t => t ^ 2, fun _ t => 2 * t, fun _ _ => 2⟩

theorem square_ok : square.Ok := by
  refine ⟨fun i T hT => ?_, fun i T _ => ?_, fun i T _ => ?_, fun _ _ => rfl, fun _ => rfl⟩
  · simp only [square]; positivity
  · exact ((hasDerivAt_id' T).fun_pow 2).congr_deriv (by simp [square])
  · exact ((hasDerivAt_id' T).const_mul 2).congr_deriv (by simp [square])

/-- **C106.** `Psat`, `phi_sat`, `Hvap`, `mechanical_critical_point`, … evaluate attraction terms at another temperature with
`a_alpha_and_derivatives`, which stores them in the object. For every mixture, a state derived from the object afterwards at the object's own
temperature then has the attraction of the other temperature; the row sums from which the fugacity coefficients of the object are
computed are those of the other temperature, too. -/
theorem C106_stale_fails (hc : c.Ok) {T T' P : ℝ} (zs : ℕ → ℝ) (hT : 0 < T) (hT' : 0 < T') : ∃ o o' n' : Mix,
    make c T P zs = some o ∧ o.a = attraction c zs T ∧
    touch c o T' false = some o' ∧ o'.T = T ∧ o'.a = attraction c zs T ∧
    (∃ r, o'.rows = some r ∧ ∀ k < c.N, r k = ∑ j ∈ range c.N, zs j * pair (fun i => c.A i T') c.omk k j) ∧
    fast c o' T P zs true = some n' ∧ n'.T = T ∧ n'.a = attraction c zs T' := by
  obtain ⟨o, h1, h2, h3, h4, h5, h6⟩ := C106_make hc (T := T) (P := P) (zs := zs) hT
  have hd : o.das = some (fun i => c.A1 i T) ∧ o.d2as = some (fun i => c.A2 i T) := by
    have e : make c T P zs = some
        { blank T P zs with
          as := some fun i => c.A i T
          roots := some fun i => √(c.A i T)
          das := some fun i => c.A1 i T
          d2as := some fun i => c.A2 i T
          rows := some (quadDeriv c.N (fun i => c.A i T) (fun i => √(c.A i T)) (fun i => c.A1 i T) (fun i => c.A2 i T) zs c.omk).rows
          a := (quadDeriv c.N (fun i => c.A i T) (fun i => √(c.A i T)) (fun i => c.A1 i T) (fun i => c.A2 i T) zs c.omk).a
          da := (quadDeriv c.N (fun i => c.A i T) (fun i => √(c.A i T)) (fun i => c.A1 i T) (fun i => c.A2 i T) zs c.omk).da
          d2a := (quadDeriv c.N (fun i => c.A i T) (fun i => √(c.A i T)) (fun i => c.A1 i T) (fun i => c.A2 i T) zs c.omk).d2a } := rfl
    rw [e] at h1
    cases h1
    exact ⟨rfl, rfl⟩
  have hpos := fun i => hc.pos i T' hT'
  have eo' : touch c o T' false = some
      { o with
        as := some fun i => c.A i T'
        roots := some fun i => √(c.A i T')
        rows := some (quadTerms c.N (fun i => c.A i T') (fun i => √(c.A i T')) o.zs c.omk).2 } := rfl
  refine ⟨o, _, { blank T P zs with
      as := some fun i => c.A i T'
      roots := some fun i => √(c.A i T')
      das := some fun i => c.A1 i T
      d2as := some fun i => c.A2 i T
      rows := some (quadDeriv c.N (fun i => c.A i T') (fun i => √(c.A i T')) (fun i => c.A1 i T) (fun i => c.A2 i T) zs c.omk).rows
      a := (quadDeriv c.N (fun i => c.A i T') (fun i => √(c.A i T')) (fun i => c.A1 i T) (fun i => c.A2 i T) zs c.omk).a
      da := (quadDeriv c.N (fun i => c.A i T') (fun i => √(c.A i T')) (fun i => c.A1 i T) (fun i => c.A2 i T) zs c.omk).da
      d2a := (quadDeriv c.N (fun i => c.A i T') (fun i => √(c.A i T')) (fun i => c.A1 i T) (fun i => c.A2 i T) zs c.omk).d2a },
    h1, ?_, eo', h2, ?_, ⟨_, rfl, fun k hk => ?_⟩, ?_, rfl, ?_⟩
  · rw [h6.value, h2, h4]
  · show o.a = _
    rw [h6.value, h2, h4]
  · rw [h4]
    exact C39_quadratic_rows (fun i => (hpos i).le) (fun _ => rfl) hc.sym hk
  · unfold fast
    rw [if_pos h2.symm]
    simp only [Option.isSome_some, if_true, solve, aad, pures, copied, hd.1, hd.2, Bool.false_eq_true, if_false, Bool.and_self, mixed,
      Option.map_some, blank]
  · show (quadDeriv _ _ _ _ _ _ _).a = _
    rw [(C38_combined hpos (fun _ => rfl) hc.sym hc.self).1]
    rfl

example : ∃ o o' n' : Mix, make square 1 1 (fun _ => 1) = some o ∧ o.a = 1 ∧ touch square o 2 false = some o' ∧
    fast square o' 1 1 (fun _ => 1) true = some n' ∧ n'.a = 4 := by
  have hat : ∀ t : ℝ, 0 < t → attraction square (fun _ => 1) t = t ^ 2 := by
    intro t ht
    simp only [attraction, mix, square, sum_range_one, pair]
    rw [Real.sqrt_mul_self (by positivity)]; ring
  obtain ⟨o, o', n', h1, h2, h3, -, -, -, h4, -, h5⟩ := C106_stale_fails square_ok (T := 1) (T' := 2) (P := 1) (fun _ => 1) one_pos two_pos
  refine ⟨o, o', n', h1, ?_, h3, h4, ?_⟩
  · rw [h2, hat 1 one_pos]; norm_num
  · rw [h5, hat 2 two_pos]; norm_num

/-! ### Fugacities of the phase with the lowest Gibbs energy -/

/-- What is known of the phases of an object: Gibbs energy departures (present with the volume), logarithms of fugacity coefficients and
fugacities (present once computed). -/
structure Phases where
  /-- `G_dep_l` -/
  Gl : Option ℝ
  /-- `G_dep_g` -/
  Gg : Option ℝ
  /-- `lnphis_l` -/
  ll : Option (List ℝ)
  /-- `lnphis_g` -/
  lg : Option (List ℝ)
  /-- `fugacities_l` -/
  fl : Option (List ℝ)
  /-- `fugacities_g` -/
  fg : Option (List ℝ)

/-- `fugacities()` (1474-1497); `lnl`, `lng` are the logarithms of the fugacity coefficients of the two volumes, `fug` turns them into
fugacities. -/
def fugacities (lnl lng : List ℝ) (fug : List ℝ → List ℝ) (only_l only_g : Bool) (s : Phases) : Phases :=
  let s1 := if !only_g && s.Gl.isSome then { s with ll := some lnl, fl := some (fug lnl) } else s
  if !only_l && s1.Gg.isSome then { s1 with lg := some lng, fg := some (fug lng) } else s1

/-- The common part (1503-1510, 1519-1526): choose by Gibbs energy; if an attribute is missing, the vapour if there is one, else the
liquid; `none` if that attribute is missing as well. -/
noncomputable def chooseG (Gl Gg : Option ℝ) (xl xg : Option (List ℝ)) : Option (List ℝ × String) :=
  let fallback := if Gg.isSome then xg.map (·, "g") else xl.map (·, "l")
  match Gl, Gg with
  | some l, some g => open Classical in if l < g then (xl.map (·, "l")).orElse fun _ => fallback else (xg.map (·, "g")).orElse fun _ => fallback
  | _, _ => fallback

/-- `_eos_fugacities_lowest_Gibbs` (1516-1529), the second attempt being the last. -/
noncomputable def fugacitiesLowest (lnl lng : List ℝ) (fug : List ℝ → List ℝ) (s : Phases) : Option (List ℝ × String) :=
  (chooseG s.Gl s.Gg s.fl s.fg).orElse fun _ =>
    let s1 := fugacities lnl lng fug false false s
    chooseG s1.Gl s1.Gg s1.fl s1.fg

/-- `_eos_lnphis_lowest_Gibbs` (1501-1513). -/
noncomputable def lnphisLowest (lnl lng : List ℝ) (fug : List ℝ → List ℝ) (s : Phases) : Option (List ℝ × String) :=
  (chooseG s.Gl s.Gg s.ll s.lg).orElse fun _ => fugacitiesLowest lnl lng fug (fugacities lnl lng fug false false s)

/-- The phase with the lowest Gibbs energy among those present. -/
def Lowest (s : Phases) (p : String) : Prop :=
  (p = "l" ∧ ∃ l, s.Gl = some l ∧ ∀ g, s.Gg = some g → l < g) ∨ (p = "g" ∧ ∃ g, s.Gg = some g ∧ ∀ l, s.Gl = some l → g ≤ l)

theorem chooseG_all (s : Phases) (xl xg : List ℝ) (h : s.Gl.isSome ∨ s.Gg.isSome) :
    ∃ r, chooseG s.Gl s.Gg (s.Gl.map fun _ => xl) (s.Gg.map fun _ => xg) = some r ∧ Lowest s r.2 ∧
      (r.2 = "l" → r.1 = xl) ∧ (r.2 = "g" → r.1 = xg) := by
  rcases hl : s.Gl with _ | l <;> rcases hg : s.Gg with _ | g <;> rw [hl, hg] at h
  · simp at h
  · exact ⟨(xg, "g"), by simp [chooseG], Or.inr ⟨rfl, g, hg, by simp [hl]⟩, by simp, by simp⟩
  · exact ⟨(xl, "l"), by simp [chooseG], Or.inl ⟨rfl, l, hl, by simp [hg]⟩, by simp, by simp⟩
  · by_cases hc : l < g
    · exact ⟨(xl, "l"), by simp [chooseG, hc], Or.inl ⟨rfl, l, hl, fun g' h' => by rw [hg] at h'; cases h'; exact hc⟩, by simp, by simp⟩
    · exact ⟨(xg, "g"), by simp [chooseG, hc], Or.inr ⟨rfl, g, hg, fun l' h' => by rw [hl] at h'; cases h'; exact not_lt.1 hc⟩, by simp, by simp⟩

/-- **C106.** With nothing computed yet, or everything, the fugacities returned are those of the phase with the lowest Gibbs energy. -/
theorem C106_fugacities_lowest (lnl lng : List ℝ) (fug : List ℝ → List ℝ) (s : Phases) (h : s.Gl.isSome ∨ s.Gg.isSome)
    (hs : (s.fl = none ∧ s.fg = none) ∨ (s.fl = s.Gl.map (fun _ => fug lnl) ∧ s.fg = s.Gg.map fun _ => fug lng)) :
    ∃ r, fugacitiesLowest lnl lng fug s = some r ∧ Lowest s r.2 ∧ (r.2 = "l" → r.1 = fug lnl) ∧ (r.2 = "g" → r.1 = fug lng) := by
  obtain ⟨r, h1, h2⟩ := chooseG_all s (fug lnl) (fug lng) h
  refine ⟨r, ?_, h2⟩
  rcases hs with ⟨hl, hg⟩ | ⟨hl, hg⟩
  · have e1 : (fugacities lnl lng fug false false s).Gl = s.Gl ∧ (fugacities lnl lng fug false false s).Gg = s.Gg ∧
        (fugacities lnl lng fug false false s).fl = s.Gl.map (fun _ => fug lnl) ∧
        (fugacities lnl lng fug false false s).fg = s.Gg.map (fun _ => fug lng) := by
      unfold fugacities
      rcases hl' : s.Gl with _ | l <;> rcases hg' : s.Gg with _ | g <;> simp [hl', hg', hl, hg]
    have e0 : chooseG s.Gl s.Gg s.fl s.fg = none := by
      rw [hl, hg]
      rcases s.Gl with _ | l <;> rcases s.Gg with _ | g <;> simp [chooseG]
    simp only [fugacitiesLowest, e0, e1.1, e1.2.1, e1.2.2.1, e1.2.2.2, h1]
    rfl
  · simp only [fugacitiesLowest, hl, hg, h1]
    rfl

/-- **C106.** Once computed, the logarithms of fugacity coefficients returned are those of the phase with the lowest Gibbs energy. -/
theorem C106_lnphis_lowest_partial (lnl lng : List ℝ) (fug : List ℝ → List ℝ) (s : Phases) (h : s.Gl.isSome ∨ s.Gg.isSome)
    (hs : s.ll = s.Gl.map (fun _ => lnl) ∧ s.lg = s.Gg.map fun _ => lng) :
    ∃ r, lnphisLowest lnl lng fug s = some r ∧ Lowest s r.2 ∧ (r.2 = "l" → r.1 = lnl) ∧ (r.2 = "g" → r.1 = lng) := by
  obtain ⟨r, h1, h2⟩ := chooseG_all s lnl lng h
  exact ⟨r, by simp only [lnphisLowest, hs.1, hs.2, h1]; rfl, h2⟩

example : ∃ r, lnphisLowest [1] [2] id ⟨some 1, some 2, some [1], some [2], none, none⟩ = some r ∧ r = ([1], "l") :=
  ⟨([1], "l"), by norm_num [lnphisLowest, chooseG], rfl⟩

example : ∃ r, fugacitiesLowest [1] [2] id ⟨some 3, some 2, none, none, none, none⟩ = some r ∧ Lowest ⟨some 3, some 2, none, none, none, none⟩ r.2
    ∧ (r.2 = "l" → r.1 = id [1]) ∧ (r.2 = "g" → r.1 = id [2]) := C106_fugacities_lowest [1] [2] id _ (by simp) (by simp)

/-- **C106.** Not yet computed (as after `to_TP_zs_fast`), the result of `_eos_lnphis_lowest_Gibbs` is the fugacities, not the logarithms of the
fugacity coefficients: whatever the functions are. -/
theorem C106_lnphis_lowest_fails (lnl lng : List ℝ) (fug : List ℝ → List ℝ) (s : Phases) (h : s.Gl.isSome ∨ s.Gg.isSome)
    (hl : s.ll = none) (hg : s.lg = none) (hfl : s.fl = none) (hfg : s.fg = none) :
    ∃ r, lnphisLowest lnl lng fug s = some r ∧ (r.2 = "l" → r.1 = fug lnl) ∧ (r.2 = "g" → r.1 = fug lng) := by
  have e0 : chooseG s.Gl s.Gg s.ll s.lg = none := by
    rw [hl, hg]
    rcases s.Gl with _ | l <;> rcases s.Gg with _ | g <;> simp [chooseG]
  have hf : (fugacities lnl lng fug false false s).Gl = s.Gl ∧ (fugacities lnl lng fug false false s).Gg = s.Gg ∧
      (fugacities lnl lng fug false false s).fl = s.Gl.map (fun _ => fug lnl) ∧
      (fugacities lnl lng fug false false s).fg = s.Gg.map (fun _ => fug lng) := by
    unfold fugacities
    rcases hl' : s.Gl with _ | l <;> rcases hg' : s.Gg with _ | g <;> simp [hl', hg', hfl, hfg]
  obtain ⟨r, h1, -, h2, h3⟩ := C106_fugacities_lowest lnl lng fug (fugacities lnl lng fug false false s)
    (by rw [hf.1, hf.2.1]; exact h) (Or.inr (by rw [hf.1, hf.2.1]; exact ⟨hf.2.2.1, hf.2.2.2⟩))
  exact ⟨r, by simp only [lnphisLowest, e0, h1]; rfl, h2, h3⟩

example : lnphisLowest [0] [1 / 2] (fun _ => [7]) ⟨some 1, some 2, none, none, none, none⟩ = some ([7], "l") := by
  norm_num [lnphisLowest, chooseG, fugacitiesLowest, fugacities]

/-- **C106.** With only one of two phases computed (`fugacities(only_g=True)`), the phase with the higher Gibbs energy is returned. -/
theorem C106_only_g_fails : ∃ (lnl lng : List ℝ) (fug : List ℝ → List ℝ) (s : Phases),
    s = fugacities lnl lng fug false true ⟨some 1, some 2, none, none, none, none⟩ ∧
    lnphisLowest lnl lng fug s = some (lng, "g") ∧ fugacitiesLowest lnl lng fug s = some (fug lng, "g") ∧ ¬ Lowest s "g" := by
  refine ⟨[0], [1], id, _, rfl, ?_, ?_, ?_⟩
  · norm_num [lnphisLowest, chooseG, fugacities]
  · norm_num [fugacitiesLowest, chooseG, fugacities]
  · rintro (⟨h, -⟩ | ⟨-, g, h1, h2⟩)
    · exact absurd h (by decide)
    · have := h2 1 rfl
      cases h1
      norm_num at this

/-! ### Compositions -/

/-- The composition at which `_dphi_dn` and `_dfugacity_dn` (1534-1538) evaluate: the fraction of component `i` replaced by `zi`. -/
noncomputable def dnComp (N : ℕ) (zs : ℕ → ℝ) (zi : ℝ) (i : ℕ) : ℕ → ℝ :=
  let z_sum := (∑ j ∈ (range N).erase i, zs j) + zi
  fun j => if j = i then zi else zs j / z_sum

/-- **C106.** Unless the fraction is the old one (or the component is alone), the fractions of that composition do not add up to one:
the replaced fraction is not divided by the total. -/
theorem C106_dphi_dn_fails (N : ℕ) (zs : ℕ → ℝ) (zi : ℝ) (i : ℕ) (hi : i < N) (hz : ∑ j ∈ range N, zs j = 1) (h0 : zs i ≠ 1)
    (hp : 1 - zs i + zi ≠ 0) : ∑ j ∈ range N, dnComp N zs zi i j = 1 ↔ zi = zs i ∨ zi = 0 := by
  have hm : i ∈ range N := mem_range.2 hi
  have hs : ∑ j ∈ (range N).erase i, zs j = 1 - zs i := by rw [← hz, ← sum_erase_add _ _ hm]; ring
  have e : ∑ j ∈ range N, dnComp N zs zi i j = (1 - zs i) / (1 - zs i + zi) + zi := by
    rw [← sum_erase_add _ _ hm]
    simp only [dnComp, if_true, hs]
    congr 1
    rw [← hs, Finset.sum_div]
    refine sum_congr rfl fun j hj => ?_
    rw [if_neg (ne_of_mem_erase hj), hs]
  rw [e, div_add' _ _ _ hp, div_eq_one_iff_eq hp]
  constructor
  · intro h
    have : zi * (zi - zs i) = 0 := by linear_combination h
    rcases mul_eq_zero.1 this with h | h
    · exact Or.inr h
    · exact Or.inl (sub_eq_zero.1 h)
  · rintro (rfl | rfl) <;> ring

example : ∑ j ∈ range 2, dnComp 2 (fun _ => 1 / 2) 1 0 j = 4 / 3 := by
  norm_num [dnComp, sum_range_succ, sum_erase_eq_sub]

/-- `subset` (391-398) of a list of indices: the normalised fractions; `none` without components or with a zero total. -/
noncomputable def subsetZs (zs : List ℝ) (idxs : List ℕ) : Option (List ℝ) :=
  let l := idxs.map fun i => zs.getD i 0
  open Classical in if l = [] ∨ l.sum = 0 then none else some (l.map (· * (1 / l.sum)))

/-- **C106.** `subset` keeps the proportions of the selected components and makes them add up to one. -/
theorem C106_subset (zs : List ℝ) (idxs : List ℕ) (l : List ℝ) (h : subsetZs zs idxs = some l) :
    l.sum = 1 ∧ l.length = idxs.length ∧ ∃ k, k ≠ 0 ∧ l.map (· * k) = idxs.map fun i => zs.getD i 0 := by
  simp only [subsetZs] at h
  split_ifs at h with hc
  push Not at hc
  cases h
  refine ⟨?_, by simp, _, hc.2, ?_⟩
  · rw [List.sum_map_mul_right, List.map_id', mul_one_div, div_self hc.2]
  · rw [List.map_map]
    conv_rhs => rw [← List.map_id (idxs.map _)]
    refine List.map_congr_left fun x _ => ?_
    have := hc.2
    simp only [Function.comp, id]
    field_simp

example : subsetZs [1 / 2, 1 / 4, 1 / 4] [0, 2] = some [2 / 3, 1 / 3] := by
  have e : ([1 / 2, 1 / 4] : List ℝ) ≠ [] := List.cons_ne_nil _ _
  norm_num [subsetZs, e]

/-- `subset` of an object with array compositions and a slice (376-397): the selection is a view, and the division writes into the composition
of the object it came from. More than one selected component raises at `if not zs` (393). The result is the composition of the object
afterwards and the new one. -/
noncomputable def subsetView (zs : List ℝ) (start stop : ℕ) : Option (List ℝ × List ℝ) :=
  let l := (zs.take stop).drop start
  open Classical in
  if l.length ≠ 1 ∨ l.sum = 0 then none
  else
    let new := l.map (· * (1 / l.sum))
    some (zs.take start ++ new ++ zs.drop stop, new)

/-- **C106.** Taking one component out of a mixture stored in arrays changes the mixture it is taken from. -/
theorem C106_subset_view_fails : ∃ zs zs' new : List ℝ, zs.sum = 1 ∧ subsetView zs 0 1 = some (zs', new) ∧ new = [1] ∧ zs'.sum ≠ 1 :=
  ⟨[1 / 2, 1 / 2], [1, 1 / 2], [1], by norm_num, by norm_num [subsetView], rfl, by norm_num⟩

/-- **C106.** The component taken out always has the fraction one, and in the array it came from its fraction is then one as well; a component
that is absent cannot be taken out. -/
theorem C106_subset_view (u v : List ℝ) (z : ℝ) :
    (z ≠ 0 → subsetView (u ++ z :: v) u.length (u.length + 1) = some (u ++ 1 :: v, [1])) ∧
    (z = 0 → subsetView (u ++ z :: v) u.length (u.length + 1) = none) := by
  have hl : ((u ++ z :: v).take (u.length + 1)).drop u.length = [z] := by
    simp [List.take_append]
  have ht : (u ++ z :: v).take u.length = u := by simp
  have hd : (u ++ z :: v).drop (u.length + 1) = v := by
    rw [← List.drop_drop]; simp
  constructor
  · intro hz
    simp [subsetView, hl, ht, hd, hz]
  · intro hz
    simp only [subsetView, hl]
    simp [hz]

example : subsetView [1 / 4, 1 / 2, 1 / 4] 1 2 = some ([1 / 4, 1, 1 / 4], [1]) := (C106_subset_view [1 / 4] [1 / 4] (1 / 2)).1 (by norm_num)

/-! ### Vapour pressure of a mixture -/

/-- `Psat` (972-988): `pure` is the calculation of the class for pseudocritical constants; the argument `polish` is not passed on. -/
noncomputable def mixPsat (pure : ℝ → ℝ → ℝ → ℝ → Bool → ℝ → ℝ) (N : ℕ) (Tcs Pcs omegas ais zs : ℕ → ℝ) (T : ℝ) (_polish : Bool) : ℝ :=
  if N = 1 then pure (Tcs 0) (Pcs 0) (omegas 0) (ais 0) false T
  else pure (∑ i ∈ range N, Tcs i * zs i) (∑ i ∈ range N, Pcs i * zs i) (∑ i ∈ range N, omegas i * zs i) (∑ i ∈ range N, ais i * zs i) false T

/-- **C106.** The vapour pressure of a one component mixture is that of the pure component without polishing, for both values of `polish`. -/
theorem C106_Psat_pure_partial (pure : ℝ → ℝ → ℝ → ℝ → Bool → ℝ → ℝ) (Tcs Pcs omegas ais zs : ℕ → ℝ) (T : ℝ) :
    mixPsat pure 1 Tcs Pcs omegas ais zs T false = pure (Tcs 0) (Pcs 0) (omegas 0) (ais 0) false T := by simp [mixPsat]

example : mixPsat (fun Tc Pc _ _ _ T => Pc * (T / Tc)) 1 (fun _ => 4) (fun _ => 8) (fun _ => 0) (fun _ => 1) (fun _ => 1) 2 true = 4 := by
  norm_num [mixPsat]

/-- **C106.** The argument `polish` has no effect: with it, the vapour pressure of a one component mixture is not that of the pure
component, whenever polishing makes a difference there. -/
theorem C106_Psat_polish_fails (pure : ℝ → ℝ → ℝ → ℝ → Bool → ℝ → ℝ) (Tcs Pcs omegas ais zs : ℕ → ℝ) (T : ℝ)
    (h : pure (Tcs 0) (Pcs 0) (omegas 0) (ais 0) true T ≠ pure (Tcs 0) (Pcs 0) (omegas 0) (ais 0) false T) :
    mixPsat pure 1 Tcs Pcs omegas ais zs T true ≠ pure (Tcs 0) (Pcs 0) (omegas 0) (ais 0) true T := by
  simpa [mixPsat] using h.symm

example : mixPsat (fun _ Pc _ _ p _ => if p then Pc else Pc + 1) 1 (fun _ => 4) (fun _ => 8) (fun _ => 0) (fun _ => 1) (fun _ => 1) 2 true ≠ 8 := by
  norm_num [mixPsat]

/-! ### Returning the object itself -/

/-- `to_TP_zs` (596-599) with respect to the restriction to one phase: an object has the phases it was solved for. `solved only_l only_g` are the
phases (liquid, vapour) a new object would have. -/
def toTPzs (solved : Bool → Bool → Bool × Bool) (same : Bool) (self : Bool × Bool) (only_l only_g : Bool) : Bool × Bool :=
  if !same then solved only_l only_g else self

/-- **C106.** At the object's own state `to_TP_zs` returns the object, also if it was solved for the liquid only and now the vapour is asked for. -/
theorem C106_to_TP_zs_fails : ∃ solved : Bool → Bool → Bool × Bool, (∀ l g, solved l g = (!g, !l)) ∧
    toTPzs solved true (solved true false) false true ≠ solved false true
    ∧ toTPzs solved true (solved true false) false false ≠ solved false false :=
  ⟨fun l g => (!g, !l), fun _ _ => rfl, by decide, by decide⟩

end Verif.MixState
