import Verif.Activity.Wilson
import Verif.Activity.NRTL
import Verif.Activity.Uniquac
import Verif.Activity.RegularSolution

/-!
# C149 — regression of binary interaction parameters

Modelled code (`/repo/thermo`): `regress_binary_parameters` of the Wilson (`wilson.py` 1658-1723), NRTL
(`nrtl.py` 1752-1856), UNIQUAC (`uniquac.py` 1763-1815) and regular solution (`regular_solution.py` 959-1043)
models, and `GibbsExcess._regress_binary_parameters` (`activity.py` 1074-1089).  The functions of one data
point and their derivatives are those of C24, C25 and C26; the choice of starting points and tries in
`fit_customized` is C146.

Simplifications: real numbers; `trunc_exp` is the exponential; the least squares solver is not modelled, only the
residuals, derivatives and starting points handed to it.  A `TypeError` of a call with too few arguments is `false`.
-/

namespace Verif.Regress

open Real Finset

/-! ## Model -/

/-- `xs_working.extend(xsi)` and `gammas_working.extend(gammasi)` over all data points (wilson.py 1681-1686,
nrtl.py 1788-1793, uniquac.py 1783-1790, regular_solution.py 992-997). -/
def flatten (l : List (ℝ × ℝ)) : List ℝ := l.flatMap fun p => [p.1, p.2]

/-- The loops of the `*_gammas_binaries` functions: `pts = len(xs)//2`, reading `xs[2i]` and writing
`calc[2i]`, `calc[2i+1]` (wilson.py 286-296). -/
def work (f : ℕ → ℝ → ℝ × ℝ) (i : ℕ) : List ℝ → List ℝ
  | x :: _ :: rest => (f i x).1 :: (f i x).2 :: work f (i + 1) rest
  | _ => []

/-- `work_func(xs_working, ...) - gammas_working`; arrays of different lengths raise. -/
def residual (f : ℕ → ℝ → ℝ × ℝ) (xs gs : List (ℝ × ℝ)) : Option (List ℝ) :=
  let c := work f 0 (flatten xs)
  let g := flatten gs
  if c.length = g.length then some (List.zipWith (· - ·) c g) else none

/-- wilson.py 1692-1693. -/
noncomputable def wilson (l12 l21 : ℝ) : ℕ → ℝ → ℝ × ℝ := fun _ x => Wilson.binary x l12 l21

/-- nrtl.py 1815-1816, and 1800-1802 with `alpha12 = alpha21`. -/
noncomputable def nrtl (t12 t21 a12 a21 : ℝ) : ℕ → ℝ → ℝ × ℝ := fun _ x => NRTL.binary x t12 t21 a12 a21

/-- uniquac.py 1822-1838 with the clamp 1824-1827. -/
noncomputable def tauClamp (t : ℝ) : ℝ := if t < 1 / 10 ^ 20 then 1 / 10 ^ 20 else t

@[inherit_doc tauClamp]
noncomputable def uniquac (r1 r2 q1 q2 t12 t21 : ℝ) : ℕ → ℝ → ℝ × ℝ :=
  fun _ x => Uniquac.binary x r1 r2 q1 q2 (tauClamp t12) (tauClamp t21)

/-- regular_solution.py 1011-1012; each data point has its temperature. -/
noncomputable def regular (R V0 V1 SP0 SP1 : ℝ) (Ts : ℕ → ℝ) (l12 l21 : ℝ) : ℕ → ℝ → ℝ × ℝ :=
  fun i x => RegularSolution.binary R x V0 V1 SP0 SP1 (Ts i) l12 l21

/-- `jac_wrapped_for_leastsq` of a symmetric NRTL fit (nrtl.py 1804-1812): `none` fits the common `alpha`,
`some` keeps it. -/
noncomputable def nrtlSymRow (row : Fin 4 → ℝ) (forced : Option ℝ) : List ℝ :=
  match forced with
  | none => [row 0, row 1, row 2 + row 3]
  | some _ => [row 0, row 1]

/-- `jac_wrapped_for_leastsq` of a symmetric regular solution fit (regular_solution.py 1007-1008). -/
def regularSymRow (row : ℝ × ℝ) : ℝ := row.1 + row.2

/-! ## Residuals -/

theorem work_flatten (f : ℕ → ℝ → ℝ × ℝ) (i : ℕ) (xs : List (ℝ × ℝ)) :
    work f i (flatten xs) = flatten (xs.mapIdx fun k p => f (i + k) p.1) := by
  induction xs generalizing i with
  | nil => rfl
  | cons p ps ih =>
    have h1 : flatten (p :: ps) = p.1 :: p.2 :: flatten ps := rfl
    rw [h1, work, ih, List.mapIdx_cons]
    have h2 : ∀ (q : ℝ × ℝ) l, flatten (q :: l) = q.1 :: q.2 :: flatten l := fun _ _ => rfl
    rw [h2]
    simp only [Nat.add_zero]
    have h3 : (fun k (q : ℝ × ℝ) => f (i + 1 + k) q.1) = fun k q => f (i + (k + 1)) q.1 := by
      funext k q
      rw [Nat.add_right_comm, Nat.add_assoc]
    rw [h3]

theorem flatten_length (l : List (ℝ × ℝ)) : (flatten l).length = 2 * l.length := by
  induction l with
  | nil => rfl
  | cons p ps ih =>
    have h1 : flatten (p :: ps) = p.1 :: p.2 :: flatten ps := rfl
    rw [h1, List.length_cons, List.length_cons, List.length_cons, ih]
    omega

theorem flatten_inj : ∀ {l m : List (ℝ × ℝ)}, flatten l = flatten m → l = m
  | [], [], _ => rfl
  | [], p :: ps, h => by simp [flatten] at h
  | p :: ps, [], h => by simp [flatten] at h
  | p :: ps, q :: qs, h => by
    have h1 : flatten (p :: ps) = p.1 :: p.2 :: flatten ps := rfl
    have h2 : flatten (q :: qs) = q.1 :: q.2 :: flatten qs := rfl
    rw [h1, h2] at h
    injection h with ha h
    injection h with hb h
    rw [flatten_inj h, Prod.ext ha hb]

theorem zipWith_sub_zero : ∀ {l m : List ℝ}, l.length = m.length →
    ((∀ r ∈ List.zipWith (· - ·) l m, r = 0) ↔ l = m)
  | [], [], _ => by simp
  | [], _ :: _, h => by simp at h
  | _ :: _, [], h => by simp at h
  | a :: l, b :: m, h => by
    have ih := zipWith_sub_zero (l := l) (m := m) (by simpa using h)
    simp only [List.zipWith_cons_cons, List.mem_cons, forall_eq_or_imp, ih, sub_eq_zero, List.cons.injEq]

/-- **C149 (layout of the residuals).** With one pair of activity coefficients per composition the residuals are
two per data point, in the order of the data: model minus data for the first and then the second component. -/
theorem C149_residual (f : ℕ → ℝ → ℝ × ℝ) (xs gs : List (ℝ × ℝ)) (h : xs.length = gs.length) :
    ∃ r, residual f xs gs = some r ∧ r.length = 2 * xs.length ∧
      ∀ i (hi : i < xs.length), r[2 * i]? = some ((f i xs[i].1).1 - (gs[i]'(h ▸ hi)).1) ∧
        r[2 * i + 1]? = some ((f i xs[i].1).2 - (gs[i]'(h ▸ hi)).2) := by
  have hf : ∀ (l : List (ℝ × ℝ)) i (hi : i < l.length),
      (flatten l)[2 * i]? = some l[i].1 ∧ (flatten l)[2 * i + 1]? = some l[i].2 := by
    intro l
    induction l with
    | nil => intro i hi; simp at hi
    | cons p ps ih =>
      intro i hi
      have h1 : flatten (p :: ps) = p.1 :: p.2 :: flatten ps := rfl
      rw [h1]
      cases i with
      | zero => simp
      | succ i =>
        have := ih i (by simpa using hi)
        simpa [Nat.mul_add, Nat.add_assoc] using this
  unfold residual
  simp only
  rw [work_flatten]
  have hl : (flatten (xs.mapIdx fun k p => f (0 + k) p.1)).length = (flatten gs).length := by
    rw [flatten_length, flatten_length, List.length_mapIdx, h]
  rw [if_pos hl]
  refine ⟨_, rfl, ?_, ?_⟩
  · rw [List.length_zipWith, hl, min_self, flatten_length, h]
  · intro i hi
    obtain ⟨a1, a2⟩ := hf (xs.mapIdx fun k p => f (0 + k) p.1) i (by simpa using hi)
    obtain ⟨b1, b2⟩ := hf gs i (h ▸ hi)
    refine ⟨?_, ?_⟩
    · rw [List.getElem?_zipWith, a1, b1]; simp
    · rw [List.getElem?_zipWith, a2, b2]; simp

/-- **C149 (mismatch).** Data with a different number of compositions and of pairs of activity coefficients are rejected. -/
theorem C149_mismatch (f : ℕ → ℝ → ℝ × ℝ) (xs gs : List (ℝ × ℝ)) (h : xs.length ≠ gs.length) :
    residual f xs gs = none := by
  unfold residual
  simp only
  rw [if_neg]
  rw [work_flatten, flatten_length, flatten_length, List.length_mapIdx]
  omega

/-- The residuals vanish exactly when the model of each data point gives its data. -/
theorem zero_iff (f : ℕ → ℝ → ℝ × ℝ) (xs gs : List (ℝ × ℝ)) (h : xs.length = gs.length) :
    (∃ r, residual f xs gs = some r ∧ ∀ e ∈ r, e = 0) ↔ gs = xs.mapIdx fun k p => f k p.1 := by
  unfold residual
  simp only
  rw [work_flatten]
  have hl : (flatten (xs.mapIdx fun k p => f (0 + k) p.1)).length = (flatten gs).length := by
    rw [flatten_length, flatten_length, List.length_mapIdx, h]
  rw [if_pos hl]
  simp only [Option.some.injEq, exists_eq_left']
  rw [zipWith_sub_zero hl]
  simp only [Nat.zero_add]
  constructor
  · intro e; exact (flatten_inj e).symm
  · intro e; rw [e]

/-- **C149 (exact fits, Wilson).** For compositions that add up to one and parameters not below the minimum,
the residuals are all zero exactly when the Wilson model with these parameters gives the data. -/
theorem C149_wilson (l12 l21 : ℝ) (h12 : 1 / 10 ^ 20 ≤ l12) (h21 : 1 / 10 ^ 20 ≤ l21) (xs gs : List (ℝ × ℝ))
    (h : xs.length = gs.length) (hx : ∀ p ∈ xs, 0 ≤ p.1 ∧ 0 ≤ p.2 ∧ p.1 + p.2 = 1) :
    (∃ r, residual (wilson l12 l21) xs gs = some r ∧ ∀ e ∈ r, e = 0) ↔
      gs = xs.map fun p => (Wilson.gammasFromArgs ![p.1, p.2] ![![1, l12], ![l21, 1]] 0,
        Wilson.gammasFromArgs ![p.1, p.2] ![![1, l12], ![l21, 1]] 1) := by
  rw [zero_iff _ _ _ h]
  have : (xs.mapIdx fun k p => wilson l12 l21 k p.1) = xs.map fun p => wilson l12 l21 0 p.1 := by
    apply List.ext_getElem (by simp)
    intro i h1 h2; simp [wilson]
  rw [this]
  have hm : (xs.map fun p => wilson l12 l21 0 p.1) = xs.map fun p =>
      (Wilson.gammasFromArgs ![p.1, p.2] ![![1, l12], ![l21, 1]] 0,
        Wilson.gammasFromArgs ![p.1, p.2] ![![1, l12], ![l21, 1]] 1) := by
    apply List.map_congr_left
    intro p hp
    obtain ⟨h1, h2, h3⟩ := hx p hp
    have e : p.2 = 1 - p.1 := by linarith
    rw [e]
    exact Wilson.C24_binary h12 h21 h1 (by linarith)
  rw [hm]

/-- **C149 (exact fits, NRTL).** The same for the NRTL model, including a common `alpha`. -/
theorem C149_nrtl (t12 t21 a12 a21 : ℝ) (h1 : -10 ^ 100 ≤ t12) (h2 : -10 ^ 100 ≤ t21) (h3 : 1 / 10 ^ 10 ≤ a12)
    (h4 : 1 / 10 ^ 10 ≤ a21) (xs gs : List (ℝ × ℝ)) (h : xs.length = gs.length)
    (hx : ∀ p ∈ xs, 0 ≤ p.1 ∧ 0 ≤ p.2 ∧ p.1 + p.2 = 1) :
    let tau : Fin 2 → Fin 2 → ℝ := ![![0, t12], ![t21, 0]]
    let al : Fin 2 → Fin 2 → ℝ := ![![0, a12], ![a21, 0]]
    (∃ r, residual (nrtl t12 t21 a12 a21) xs gs = some r ∧ ∀ e ∈ r, e = 0) ↔
      gs = xs.map fun p => (NRTL.gammasFromArgs ![p.1, p.2] (NRTL.Gs al tau) tau 0,
        NRTL.gammasFromArgs ![p.1, p.2] (NRTL.Gs al tau) tau 1) := by
  intro tau al
  rw [zero_iff _ _ _ h]
  have hm : (xs.mapIdx fun k p => nrtl t12 t21 a12 a21 k p.1) = xs.map fun p =>
      (NRTL.gammasFromArgs ![p.1, p.2] (NRTL.Gs al tau) tau 0,
        NRTL.gammasFromArgs ![p.1, p.2] (NRTL.Gs al tau) tau 1) := by
    apply List.ext_getElem (by simp)
    intro i i1 i2
    rw [List.getElem_mapIdx, List.getElem_map]
    have hi : i < xs.length := by simpa using i1
    obtain ⟨p1, p2, p3⟩ := hx xs[i] (List.getElem_mem hi)
    have e : xs[i].2 = 1 - xs[i].1 := by linarith
    rw [e]
    exact NRTL.C25_binary h1 h2 h3 h4 p1 (by linarith)
  rw [hm]

/-- **C149 (exact fits, UNIQUAC).** The same for the UNIQUAC model, at compositions strictly between the pure
components. -/
theorem C149_uniquac (r1 r2 q1 q2 t12 t21 : ℝ) (hr1 : 0 < r1) (hr2 : 0 < r2) (hq1 : 0 < q1) (hq2 : 0 < q2)
    (h12 : 1 / 10 ^ 20 ≤ t12) (h21 : 1 / 10 ^ 20 ≤ t21) (xs gs : List (ℝ × ℝ)) (h : xs.length = gs.length)
    (hx : ∀ p ∈ xs, 0 < p.1 ∧ 0 < p.2 ∧ p.1 + p.2 = 1) :
    let g := fun p : ℝ × ℝ => Uniquac.UNIQUACgammas ![p.1, p.2] ![r1, r2] ![q1, q2]
      (fun i j => ![![1, t12], ![t21, 1]] i j)
    (∃ r, residual (uniquac r1 r2 q1 q2 t12 t21) xs gs = some r ∧ ∀ e ∈ r, e = 0) ↔
      gs = xs.map fun p => (g p 0, g p 1) := by
  intro g
  rw [zero_iff _ _ _ h]
  have hm : (xs.mapIdx fun k p => uniquac r1 r2 q1 q2 t12 t21 k p.1) = xs.map fun p => (g p 0, g p 1) := by
    apply List.ext_getElem (by simp)
    intro i i1 i2
    rw [List.getElem_mapIdx, List.getElem_map]
    have hi : i < xs.length := by simpa using i1
    obtain ⟨p1, p2, p3⟩ := hx xs[i] (List.getElem_mem hi)
    have e : xs[i].2 = 1 - xs[i].1 := by linarith
    simp only [g, uniquac, tauClamp]
    rw [if_neg (not_lt.2 h12), if_neg (not_lt.2 h21), e]
    have hp : (0 : ℝ) < 1 / 10 ^ 20 := by positivity
    exact Uniquac.C26_uniquac_binary p1 (by linarith) hr1 hr2 hq1 hq2 (hp.trans_le h12) (hp.trans_le h21)
  rw [hm]

/-- **C149 (exact fits, regular solution).** For data at most `1e10` the residuals are all zero when the
regular solution model gives the data, each point at its own temperature. -/
theorem C149_regular (R V0 V1 SP0 SP1 : ℝ) (Ts : ℕ → ℝ) (l12 l21 : ℝ) (h1 : |l12| ≤ 10 ^ 100)
    (h2 : |l21| ≤ 10 ^ 100) (hV0 : 0 < V0) (hV1 : 0 < V1) (xs : List (ℝ × ℝ))
    (hx : ∀ p ∈ xs, 0 ≤ p.1 ∧ 0 ≤ p.2 ∧ p.1 + p.2 = 1) :
    let g := fun (k : ℕ) (p : ℝ × ℝ) => RegularSolution.gammasFromArgs R (Ts k) ![p.1, p.2] ![V0, V1] ![SP0, SP1]
      (fun i j => ![![0, l12], ![l21, 0]] i j)
    (∀ i (hi : i < xs.length) j, g i xs[i] j ≤ 10 ^ 10) →
    ∃ r, residual (regular R V0 V1 SP0 SP1 Ts l12 l21) xs (xs.mapIdx fun k p => (g k p 0, g k p 1)) = some r ∧
      ∀ e ∈ r, e = 0 := by
  intro g hc
  rw [zero_iff _ _ _ (by simp)]
  apply List.ext_getElem (by simp)
  intro i i1 i2
  rw [List.getElem_mapIdx, List.getElem_mapIdx]
  have hi : i < xs.length := by simpa using i1
  obtain ⟨p1, p2, p3⟩ := hx xs[i] (List.getElem_mem hi)
  have e : xs[i].2 = 1 - xs[i].1 := by linarith
  have hd : xs[i].1 * V0 + (1 - xs[i].1) * V1 ≠ 0 := by
    rw [← e]
    rcases p1.eq_or_lt with h | h
    · have : xs[i].2 = 1 := by linarith
      rw [← h, this]; simpa using hV1.ne'
    · have := mul_pos h hV0
      have := mul_nonneg p2 hV1.le
      positivity
  have hb := RegularSolution.C26_regular_binary (R := R) (SP0 := SP0) (SP1 := SP1) (T := Ts i) hd h1 h2
  simp only at hb
  simp only [regular]
  rw [hb]
  have c0 := hc i hi 0
  have c1 := hc i hi 1
  simp only [g] at c0 c1 ⊢
  rw [e] at c0 c1 ⊢
  rw [min_eq_left c0, min_eq_left c1]

/-- **C149 (second mole fraction).** The residuals do not depend on the second mole fraction of a pair. -/
theorem C149_second_ignored (f : ℕ → ℝ → ℝ × ℝ) (xs ys gs : List (ℝ × ℝ)) (h : xs.map (·.1) = ys.map (·.1)) :
    residual f xs gs = residual f ys gs := by
  have hl : xs.length = ys.length := by simpa using congrArg List.length h
  have : (xs.mapIdx fun k p => f (0 + k) p.1) = ys.mapIdx fun k p => f (0 + k) p.1 := by
    apply List.ext_getElem (by simpa using hl)
    intro i i1 i2
    rw [List.getElem_mapIdx, List.getElem_mapIdx]
    have hi : i < xs.length := by simpa using i1
    have hj : i < ys.length := hl ▸ hi
    have : (xs.map (·.1))[i]'(by simpa using hi) = (ys.map (·.1))[i]'(by simpa using hj) := by
      simp only [h]
    simp only [List.getElem_map] at this
    rw [this]
  unfold residual
  simp only [work_flatten, this]

/-- Two data points meeting the hypotheses. -/
example : ∀ p ∈ [((1 : ℝ) / 4, (3 : ℝ) / 4), (1, 0)], 0 ≤ p.1 ∧ 0 ≤ p.2 ∧ p.1 + p.2 = 1 := by
  intro p hp
  simp only [List.mem_cons, List.not_mem_nil, or_false] at hp
  rcases hp with rfl | rfl <;> norm_num

example := C149_wilson 2 (1 / 2) (by norm_num) (by norm_num) [(1 / 4, 3 / 4)] [(1, 1)] rfl
  (by intro p hp; simp only [List.mem_singleton] at hp; subst hp; norm_num)

example := C149_nrtl 1 2 (1 / 5) (1 / 5) (by norm_num) (by norm_num) (by norm_num) (by norm_num)
  [(1 / 4, 3 / 4)] [(1, 1)] rfl
  (by intro p hp; simp only [List.mem_singleton] at hp; subst hp; norm_num)

example := C149_uniquac 4 3 3 2 1 2 (by norm_num) (by norm_num) (by norm_num) (by norm_num) (by norm_num)
  (by norm_num) [(1 / 4, 3 / 4)] [(1, 1)] rfl
  (by intro p hp; simp only [List.mem_singleton] at hp; subst hp; norm_num)

example : residual (fun _ x => (x, 2 * x)) [(1, 0), (3, -2)] [(1, 1), (1, 1)] = some [0, 1, 2, 5] := by
  simp [residual, flatten, work]; norm_num

example : residual (fun _ x => (x, x)) [(1, 0), (0, 1)] [(1, 1)] = none := C149_mismatch _ _ _ (by simp)

example (f : ℕ → ℝ → ℝ × ℝ) : residual f [(1 / 4, 3 / 4)] [(1, 1)] = residual f [(1 / 4, 9)] [(1, 1)] :=
  C149_second_ignored _ _ _ _ rfl

/-! ## What does not determine a model -/

/-- **C149 fails.** A regressed Wilson parameter need not be one of the model: any value below the minimum
gives the residuals of the minimum, so a negative value can fit data exactly while the model with that value
gives a negative activity coefficient. -/
theorem C149_clamped_fails :
    ∃ gs : List (ℝ × ℝ), (∃ r, residual (wilson (-5) 1) [(1 / 2, 1 / 2)] gs = some r ∧ ∀ e ∈ r, e = 0) ∧
      (∀ g ∈ gs, 0 < g.1) ∧
      Wilson.gammasFromArgs ![1 / 2, 1 / 2] ![![1, -5], ![1, 1]] 0 < 0 := by
  refine ⟨[Wilson.binary (1 / 2) (-5) 1], ?_, ?_, ?_⟩
  · rw [zero_iff _ [(1 / 2, 1 / 2)] [Wilson.binary (1 / 2) (-5) 1] rfl]
    simp [wilson]
  · intro g hg
    simp only [List.mem_singleton] at hg
    subst hg
    have hm : (0 : ℝ) < Wilson.minLambda := by unfold Wilson.minLambda; positivity
    have hc : Wilson.clamp (-5) = Wilson.minLambda := by
      unfold Wilson.clamp; rw [if_pos]; linarith
    simp only [Wilson.binary, hc]
    have : 0 < 1 / (1 / 2 + (1 - 1 / 2 : ℝ) * Wilson.minLambda) := by
      apply one_div_pos.2; linarith
    positivity
  · simp only [Wilson.gammasFromArgs, Wilson.gammas, Wilson.inv, Wilson.xjL, Fin.sum_univ_two,
      Matrix.cons_val_zero, Matrix.cons_val_one]
    apply mul_neg_of_pos_of_neg (exp_pos _)
    norm_num

theorem regular_clamp (l : ℝ) (h : |l| ≤ 10 ^ 100) : RegularSolution.clamp l = l := by
  have := abs_le.mp h
  simp only [RegularSolution.clamp]
  rw [if_neg (by linarith [this.1] : ¬ l < -10 ^ 100), if_neg (by linarith [this.2])]

/-- **C149 fails.** The two parameters of the regular solution model cannot be told apart by any data: only
their sum enters, so exact fits are never unique. -/
theorem C149_sum_fails (R V0 V1 SP0 SP1 : ℝ) (Ts : ℕ → ℝ) (l12 l21 d : ℝ) (h1 : |l12| ≤ 10 ^ 100)
    (h2 : |l21| ≤ 10 ^ 100) (h3 : |l12 + d| ≤ 10 ^ 100) (h4 : |l21 - d| ≤ 10 ^ 100) (xs gs : List (ℝ × ℝ)) :
    residual (regular R V0 V1 SP0 SP1 Ts (l12 + d) (l21 - d)) xs gs
      = residual (regular R V0 V1 SP0 SP1 Ts l12 l21) xs gs := by
  have : regular R V0 V1 SP0 SP1 Ts (l12 + d) (l21 - d) = regular R V0 V1 SP0 SP1 Ts l12 l21 := by
    funext i x
    simp only [regular, RegularSolution.binary, regular_clamp _ h1, regular_clamp _ h2, regular_clamp _ h3,
      regular_clamp _ h4]
    have : (SP0 - SP1) * (SP0 - SP1) + (l12 + d) * SP0 * SP1 + (l21 - d) * SP0 * SP1
      = (SP0 - SP1) * (SP0 - SP1) + l12 * SP0 * SP1 + l21 * SP0 * SP1 := by ring
    rw [this]
  rw [this]

example := C149_sum_fails 8 1 2 3 4 (fun _ => 300) 1 2 7 (by norm_num) (by norm_num) (by norm_num) (by norm_num)
  [(1 / 2, 1 / 2)] [(1, 1)]

/-! ## Numbering of the components -/

/-- **C149 (numbering of the components).** Exchanging the components in the compositions and in the parameters
exchanges the two activity coefficients of the Wilson and NRTL functions. -/
theorem C149_exchange (x l12 l21 t12 t21 a12 a21 : ℝ) :
    Wilson.binary (1 - x) l21 l12 = (Wilson.binary x l12 l21).swap ∧
      NRTL.binary (1 - x) t21 t12 a21 a12 = (NRTL.binary x t12 t21 a12 a21).swap := by
  constructor
  · simp only [Wilson.binary, Prod.swap, sub_sub_cancel]
    refine Prod.ext ?_ ?_
    · simp only; congr 2; ring
    · simp only; congr 2; ring
  · simp only [NRTL.binary, Prod.swap, sub_sub_cancel]

/-! ## Starting points -/

/-- The loop over the starting points of the Wilson and UNIQUAC models (wilson.py 1721-1723,
uniquac.py 1812-1814): each is followed up by the exchanged one. -/
def doubled (l : List (ℝ × ℝ)) : List (ℝ × ℝ) := l ++ l.map Prod.swap

open Classical in
/-- The same for the regular solution (regular_solution.py 1039-1042): only when the two differ. -/
noncomputable def doubledNe (l : List (ℝ × ℝ)) : List (ℝ × ℝ) :=
  l ++ (l.filter fun p => decide (p.2 ≠ p.1)).map Prod.swap

/-- NRTL (nrtl.py 1848-1855): `((tau12, tau21), (alpha12, alpha21))` with either or both pairs exchanged. -/
def quadrupled (l : List ((ℝ × ℝ) × (ℝ × ℝ))) : List ((ℝ × ℝ) × (ℝ × ℝ)) :=
  l ++ l.flatMap fun p => [(p.1.swap, p.2), (p.1, p.2.swap), (p.1.swap, p.2.swap)]

/-- **C149 (starting points).** The starting points do not depend on the numbering of the components, and the
given ones are among them. -/
theorem C149_guesses (l : List (ℝ × ℝ)) (m : List ((ℝ × ℝ) × (ℝ × ℝ))) :
    (∀ p ∈ doubled l, p.swap ∈ doubled l) ∧ (∀ p ∈ doubledNe l, p.swap ∈ doubledNe l) ∧
      (∀ p ∈ quadrupled m, (p.1.swap, p.2) ∈ quadrupled m ∧ (p.1, p.2.swap) ∈ quadrupled m) ∧
      l ⊆ doubled l ∧ l ⊆ doubledNe l ∧ m ⊆ quadrupled m := by
  refine ⟨?_, ?_, ?_, by simp [doubled], by simp [doubledNe], by simp [quadrupled]⟩
  · intro p hp
    simp only [doubled, List.mem_append, List.mem_map] at hp ⊢
    rcases hp with h | ⟨q, h, rfl⟩
    · exact Or.inr ⟨p, h, rfl⟩
    · left; simpa using h
  · intro p hp
    simp only [doubledNe, List.mem_append, List.mem_map, List.mem_filter, decide_eq_true_eq] at hp ⊢
    rcases hp with h | ⟨q, h, rfl⟩
    · by_cases he : p.2 = p.1
      · left
        have : p.swap = p := Prod.ext he he.symm
        rw [this]; exact h
      · exact Or.inr ⟨p, ⟨h, he⟩, rfl⟩
    · left; simpa using h.1
  · intro p hp
    simp only [quadrupled, List.mem_append, List.mem_flatMap, List.mem_cons, List.not_mem_nil, or_false] at hp ⊢
    rcases hp with h | ⟨q, h, rfl | rfl | rfl⟩
    · exact ⟨Or.inr ⟨p, h, by simp⟩, Or.inr ⟨p, h, by simp⟩⟩
    · exact ⟨Or.inl (by simpa using h), Or.inr ⟨q, h, by simp⟩⟩
    · exact ⟨Or.inr ⟨q, h, by simp⟩, Or.inl (by simpa using h)⟩
    · exact ⟨Or.inr ⟨q, h, by simp⟩, Or.inr ⟨q, h, by simp⟩⟩

example : doubled [(1, 2)] = [((1 : ℝ), (2 : ℝ)), (2, 1)] := rfl

/-! ## Derivatives handed to the solver -/

/-- The diagonal derivative of a function whose two arguments separate. -/
theorem diagonal {f : ℝ → ℝ → ℝ} {a u v : ℝ} (hs : ∀ p q, f p q * f a a = f p a * f a q) (h0 : f a a ≠ 0)
    (h1 : HasDerivAt (fun p => f p a) u a) (h2 : HasDerivAt (fun p => f a p) v a) :
    HasDerivAt (fun p => f p p) (u + v) a := by
  have h := (h1.fun_mul h2).div_const (f a a)
  have e : (fun p => f p p) = fun p => f p a * f a p / f a a := by
    funext p
    rw [← hs, mul_div_cancel_right₀ _ h0]
  rw [e]
  refine h.congr_deriv ?_
  field_simp

/-- **C149 (common `alpha`).** With one `alpha` for both directions the sum of the last two columns is the
derivative with respect to it, and the first two columns remain those of the `tau` parameters; a fixed `alpha`
leaves the first two. -/
theorem C149_symmetric_nrtl {x0 t12 t21 a : ℝ} (h1 : -10 ^ 100 < t12) (h2 : -10 ^ 100 < t21)
    (h3 : 1 / 10 ^ 10 < a) (hx : 0 ≤ x0) (hx' : x0 ≤ 1) :
    let J := NRTL.binaryJac x0 t12 t21 a a
    (∃ d1 d2 d3, nrtlSymRow J.1 none = [d1, d2, d3] ∧ (∀ c, nrtlSymRow J.1 (some c) = [d1, d2]) ∧
      HasDerivAt (fun p => (NRTL.binary x0 p t21 a a).1) d1 t12 ∧
      HasDerivAt (fun p => (NRTL.binary x0 t12 p a a).1) d2 t21 ∧
      HasDerivAt (fun p => (NRTL.binary x0 t12 t21 p p).1) d3 a) ∧
    (∃ d1 d2 d3, nrtlSymRow J.2 none = [d1, d2, d3] ∧ (∀ c, nrtlSymRow J.2 (some c) = [d1, d2]) ∧
      HasDerivAt (fun p => (NRTL.binary x0 p t21 a a).2) d1 t12 ∧
      HasDerivAt (fun p => (NRTL.binary x0 t12 p a a).2) d2 t21 ∧
      HasDerivAt (fun p => (NRTL.binary x0 t12 t21 p p).2) d3 a) := by
  intro J
  obtain ⟨⟨A0, A1, A2, A3⟩, ⟨B0, B1, B2, B3⟩⟩ := NRTL.C25_binary_jac h1 h2 h3 h3 hx hx'
  refine ⟨⟨_, _, _, rfl, fun _ => rfl, A0, A1, ?_⟩, ⟨_, _, _, rfl, fun _ => rfl, B0, B1, ?_⟩⟩
  · refine diagonal (f := fun p q => (NRTL.binary x0 t12 t21 p q).1) ?_ ?_ A2 A3
    · intro p q
      simp only [NRTL.binary, ← exp_add]
      congr 1; ring
    · simp only [NRTL.binary]; exact (exp_pos _).ne'
  · refine diagonal (f := fun p q => (NRTL.binary x0 t12 t21 p q).2) ?_ ?_ B2 B3
    · intro p q
      simp only [NRTL.binary, ← exp_add]
      congr 1; ring
    · simp only [NRTL.binary]; exact (exp_pos _).ne'

example := C149_symmetric_nrtl (x0 := 1 / 4) (t12 := 1) (t21 := 2) (a := 1 / 5) (by norm_num) (by norm_num)
  (by norm_num) (by norm_num) (by norm_num)

/-- **C149 (common parameter of the regular solution).** Below the cap on the activity coefficients and within
the clamps, the sum of the columns is the derivative with respect to the common parameter. -/
theorem C149_symmetric_regular {R x0 V0 V1 SP0 SP1 T l : ℝ} (h : x0 * V0 + (1 - x0) * V1 ≠ 0)
    (hl : |l| < 10 ^ 100) (hc0 : (RegularSolution.binary R x0 V0 V1 SP0 SP1 T l l).1 < 10 ^ 10)
    (hc1 : (RegularSolution.binary R x0 V0 V1 SP0 SP1 T l l).2 < 10 ^ 10) :
    let J := RegularSolution.binaryJac R x0 V0 V1 SP0 SP1 T l l
    HasDerivAt (fun p => (RegularSolution.binary R x0 V0 V1 SP0 SP1 T p p).1) (regularSymRow J.1) l ∧
    HasDerivAt (fun p => (RegularSolution.binary R x0 V0 V1 SP0 SP1 T p p).2) (regularSymRow J.2) l := by
  intro J
  obtain ⟨A0, A1, B0, B1⟩ := RegularSolution.C26_regular_binary_jac (R := R) h hl hl hc0 hc1
  have he : ∀ᶠ p in nhds l, |p| < 10 ^ 100 ∧ |2 * p - l| < 10 ^ 100 := by
    have c1 : Continuous fun p : ℝ => |p| := continuous_abs
    have c2 : Continuous fun p : ℝ => |2 * p - l| := by fun_prop
    have o1 := (isOpen_lt c1 continuous_const).mem_nhds (show l ∈ {p : ℝ | |p| < 10 ^ 100} from hl)
    have o2 := (isOpen_lt c2 continuous_const).mem_nhds
      (show l ∈ {p : ℝ | |2 * p - l| < 10 ^ 100} by
        show |2 * l - l| < 10 ^ 100
        rw [show 2 * l - l = l by ring]; exact hl)
    filter_upwards [o1, o2] with p hp hq
    exact ⟨hp, hq⟩
  have key : ∀ᶠ p in nhds l, RegularSolution.binary R x0 V0 V1 SP0 SP1 T p p
      = RegularSolution.binary R x0 V0 V1 SP0 SP1 T (2 * p - l) l := by
    filter_upwards [he] with p hp
    simp only [RegularSolution.binary, regular_clamp p hp.1.le, regular_clamp _ hp.2.le, regular_clamp l hl.le]
    have : (SP0 - SP1) * (SP0 - SP1) + p * SP0 * SP1 + p * SP0 * SP1
      = (SP0 - SP1) * (SP0 - SP1) + (2 * p - l) * SP0 * SP1 + l * SP0 * SP1 := by ring
    rw [this]
  have hin : HasDerivAt (fun p : ℝ => 2 * p - l) 2 l := by
    simpa using ((hasDerivAt_id l).const_mul (2 : ℝ)).sub_const l
  have hll : 2 * l - l = l := by ring
  have hJ : J.1.1 = J.1.2 ∧ J.2.1 = J.2.2 := ⟨rfl, rfl⟩
  constructor
  · have h := HasDerivAt.comp l (h₂ := fun p => (RegularSolution.binary R x0 V0 V1 SP0 SP1 T p l).1)
      (h := fun p => 2 * p - l) (by rw [hll]; exact A0) hin
    refine (h.congr_of_eventuallyEq ?_).congr_deriv ?_
    · filter_upwards [key] with p hp
      simp only [Function.comp]
      rw [hp]
    · show J.1.1 * 2 = J.1.1 + J.1.2
      rw [← hJ.1]; ring
  · have h := HasDerivAt.comp l (h₂ := fun p => (RegularSolution.binary R x0 V0 V1 SP0 SP1 T p l).2)
      (h := fun p => 2 * p - l) (by rw [hll]; exact B0) hin
    refine (h.congr_of_eventuallyEq ?_).congr_deriv ?_
    · filter_upwards [key] with p hp
      simp only [Function.comp]
      rw [hp]
    · show J.2.1 * 2 = J.2.1 + J.2.2
      rw [← hJ.2]; ring

/-! ## Other fitting methods -/

/-- The kinds of regression. -/
inductive Kind
  | wilson
  | nrtl
  | nrtlCommon
  | nrtlFixed
  | uniquac
  | regular
  | regularCommon
deriving DecidableEq

/-- Number of fitted parameters (wilson.py 1699, nrtl.py 1821-1827, uniquac.py 1805, regular_solution.py
1017-1020). -/
def Kind.params : Kind → ℕ
  | .wilson => 2
  | .nrtl => 4
  | .nrtlCommon => 3
  | .nrtlFixed => 2
  | .uniquac => 2
  | .regular => 2
  | .regularCommon => 1

/-- Required arguments of the function passed as `analytical_jac`: Wilson passes the wrapper made for it (1704),
NRTL and the regular solution pass the general function (nrtl.py 1832: `xs` and four parameters;
regular_solution.py 1025: `xs, Vs, SPs, Ts` and two parameters), UNIQUAC none (1807).  Each of the general
functions has one more optional argument. -/
def Kind.jac : Kind → Option (ℕ × ℕ)
  | .wilson => some (3, 0)
  | .nrtl => some (5, 1)
  | .nrtlCommon => some (5, 1)
  | .nrtlFixed => some (5, 1)
  | .uniquac => none
  | .regular => some (6, 1)
  | .regularCommon => some (6, 1)

/-- `curve_fit(..., jac=analytical_jac)` of any method but `'lm'` without weights (fitting.py 822, 846) calls the
function with `xs` and the parameters. -/
def Kind.otherMethod (k : Kind) : Bool :=
  match k.jac with
  | none => true
  | some (r, o) => decide (r ≤ 1 + k.params) && decide (1 + k.params ≤ r + o)

/-- **C149 (other methods).** Fitting methods other than the default work for Wilson, UNIQUAC and NRTL with all
four parameters. -/
theorem C149_other_method (k : Kind) (h : k = .wilson ∨ k = .nrtl ∨ k = .uniquac) : k.otherMethod = true := by
  rcases h with rfl | rfl | rfl <;> rfl

/-- **C149 fails.** In all other kinds of regression they raise, because the general function of the derivatives
is passed in place of the wrapper defined for the fitted parameters. -/
theorem C149_other_method_fails (k : Kind) (h : k ≠ .wilson ∧ k ≠ .nrtl ∧ k ≠ .uniquac) :
    k.otherMethod = false := by
  obtain ⟨h1, h2, h3⟩ := h
  cases k <;> first | rfl | contradiction

example : Kind.otherMethod .regular = false := rfl

/-- **C149 (columns).** The default method gets as many columns as parameters. -/
theorem C149_columns (row : Fin 4 → ℝ) (a : ℝ) :
    (nrtlSymRow row none).length = Kind.nrtlCommon.params ∧
      (nrtlSymRow row (some a)).length = Kind.nrtlFixed.params := ⟨rfl, rfl⟩

end Verif.Regress
