import Mathlib.Analysis.SpecialFunctions.Log.Deriv
import Mathlib.Analysis.Calculus.Deriv.Inv
import Mathlib.Tactic

/-!
# The PSRK mixing rule (`thermo/eos_mix.py`)

* `PSRKMixingRules` (5819-5959): `A`, `A_inv` (5820-5822), `a_alpha_and_derivatives` (5890-5950), `solve_T` (5952-5959);
* `PSRK.__init__` (9812-9856), `PSRK._fast_init_specific` (9860-9875);
* the parts of `GCEOSMIX.to_TP_zs_fast` (519-551) and `GCEOS.solve` (`thermo/eos.py` 1112-1157) which decide at which
  temperature the parameters of the pure components and the excess Gibbs model are taken.

Specification: the attraction parameter reproduces the excess Helmholtz energy of the Soave-Redlich-Kwong equation at the
packing `V = u b`; the temperature derivatives are the derivatives of the value; every calculation takes the excess Gibbs
model at the temperature asked for and at the composition of the object.

Simplified: real numbers, lists as functions on `Fin N`; the excess Gibbs model is a function of temperature and composition
(its own derivatives are hypotheses); a stored list `a_alphas` is represented by the temperature it was computed at; the
iteration of `GCEOS.solve_T` is represented by the list of temperatures it evaluates and the temperature it returns.
-/

namespace Verif.PSRK

variable {N : ℕ}

/-! ### The code: the mixing rule -/

/-- `PSRKMixingRules.A` (5821). -/
noncomputable def A : ℝ := -0.6466271649250525

/-- `tot0` (5924, 5940). -/
noncomputable def tot0 (R T : ℝ) (zs as bs : Fin N → ℝ) : ℝ := ∑ i, zs i * as i * (1 / bs i) * (1 / R * (1 / T))

/-- `tot1` (5925, 5941). -/
noncomputable def tot1 (b : ℝ) (zs bs : Fin N → ℝ) : ℝ := ∑ i, zs i * Real.log (b * (1 / bs i))

/-- `d1tot` (5928). -/
noncomputable def d1tot (R T : ℝ) (zs as das bs : Fin N → ℝ) : ℝ :=
  ∑ i, (zs i * das i * (1 / R * (1 / T)) * (1 / bs i) - zs i * as i * (1 / R * (1 / T * (1 / T))) * (1 / bs i))

/-- `other` (5932). -/
noncomputable def other (T : ℝ) (zs as das bs : Fin N → ℝ) : ℝ :=
  ∑ i, (zs i * das i * (1 / bs i) - zs i * as i * (1 / bs i) * (1 / T))

/-- `d2tot` (5934-5936). -/
noncomputable def d2tot (T : ℝ) (zs as das d2as bs : Fin N → ℝ) : ℝ :=
  ∑ i, (zs i * d2as i * (1 / bs i) - 2 * zs i * das i * (1 / T) * (1 / bs i)
    + 2 * zs i * as i * (1 / T * (1 / T)) * (1 / bs i))

/-- `a_alpha` (5944). -/
noncomputable def aAlpha (R A T b : ℝ) (zs as bs : Fin N → ℝ) (GE : ℝ) : ℝ :=
  R * T * b * (tot0 R T zs as bs + 1 / A * (GE * (1 / R * (1 / T)) + tot1 b zs bs))

/-- `da_alpha_dT` (5946). -/
noncomputable def daAlpha (R A T b : ℝ) (zs as das bs : Fin N → ℝ) (GE dGE : ℝ) : ℝ :=
  R * T * b * (d1tot R T zs as das bs + 1 / A * (dGE * (1 / R * (1 / T)) - GE * (1 / R * (1 / T * (1 / T)))))
    + aAlpha R A T b zs as bs GE * (1 / T)

/-- `d2a_alpha_dT2` (5947-5948). -/
noncomputable def d2aAlpha (A T b : ℝ) (zs as das d2as bs : Fin N → ℝ) (GE dGE d2GE : ℝ) : ℝ :=
  b * (d2tot T zs as das d2as bs + 2 * (1 / T) * (other T zs as das bs + 1 / A * (dGE - GE * (1 / T)))
    + 1 / A * (d2GE - 2 * (1 / T) * dGE + 2 * GE * (1 / T * (1 / T))))

/-- The covolumes of the components and of the mixture as `__init__` sets them (9846-9853). -/
def bsOf (b0s cs : Fin N → ℝ) (i : Fin N) : ℝ := b0s i - cs i

/-- `b` (9845-9853). -/
def bOf (zs b0s cs : Fin N → ℝ) : ℝ := ∑ i, b0s i * zs i - ∑ i, cs i * zs i

/-! ### The code: which state the excess Gibbs model has -/

/-- What an instance remembers. -/
structure Obj (N : ℕ) where
  /-- `zs` -/
  zs : Fin N → ℝ
  /-- `T`, absent before a pressure and volume specification is solved -/
  T : Option ℝ
  /-- `ge_model.T` -/
  geT : ℝ
  /-- `ge_model.xs` -/
  geX : Fin N → ℝ
  /-- `_last_ge` -/
  last : Option (ℝ × (Fin N → ℝ))
  /-- the temperature of `a_alphas` -/
  aT : Option ℝ
  /-- the temperature of `da_alpha_dTs` and `d2a_alpha_dT2s` -/
  dT : Option ℝ

/-- Where a calculation takes its data from. -/
structure Used (N : ℕ) where
  /-- temperature of the parameters of the pure components -/
  aT : ℝ
  /-- temperature of their derivatives -/
  dT : ℝ
  /-- temperature of the excess Gibbs model -/
  geT : ℝ
  /-- composition of the excess Gibbs model -/
  geX : Fin N → ℝ

open Classical in
/-- `PSRK.__init__` (9816, 9824, 9839-9843): the excess Gibbs model given is at `geT`, `geX`. -/
noncomputable def construct (zs : Fin N → ℝ) (T : Option ℝ) (geT : ℝ) (geX : Fin N → ℝ) : Obj N :=
  if zs ≠ geX ∨ some geT ≠ T then ⟨zs, T, T.getD 298.15, zs, none, none, none⟩
  else ⟨zs, T, geT, geX, none, none, none⟩

open Classical in
/-- `a_alpha_and_derivatives` (5890-5908): the updated object and where the data come from; `none` is `AttributeError`. -/
noncomputable def evaluate (o : Obj N) (T : ℝ) (pureAlphas : Bool) : Option (Obj N × Used N) :=
  let p := if pureAlphas then some ({ o with aT := some T, dT := some T }, T, T)
    else match o.aT, o.dT with
      | some a, some d => some (o, a, d)
      | _, _ => none
  match p with
  | none => none
  | some (o, a, d) =>
    if T ≠ o.geT then some ({ o with last := some (T, o.zs) }, ⟨a, d, T, o.zs⟩)
    else some (o, ⟨a, d, o.geT, o.geX⟩)

/-- The evaluations of `GCEOS.solve_T` (`thermo/eos.py` 1660-1671), with the default `pure_a_alphas`. -/
noncomputable def evaluations (o : Obj N) : List ℝ → Option (Obj N)
  | [] => some o
  | t :: ts => match evaluate o t true with
    | none => none
    | some (o', _) => evaluations o' ts

open Classical in
/-- `PSRKMixingRules.solve_T` (5952-5959): `tried` are the temperatures tried and `T` the one returned. -/
noncomputable def solveT (o : Obj N) (tried : List ℝ) (T : ℝ) : Option (Obj N) :=
  match evaluations o tried with
  | none => none
  | some o => match o.last with
    | some (t, x) => if t = T then some { o with geT := t, geX := x, last := none }
      else some { o with geT := T, geX := o.zs }
    | none => some { o with geT := T, geX := o.zs }

/-- `GCEOS.solve` (`thermo/eos.py` 1112-1156): pressure and volume given (`tried`, `T` as in `solveT`). -/
noncomputable def solvePV (o : Obj N) (tried : List ℝ) (T : ℝ) (pureAlphas : Bool) : Option (Obj N × Used N) :=
  match solveT o tried T with
  | none => none
  | some o => evaluate { o with T := some T } T pureAlphas

/-- `GCEOS.solve` (`thermo/eos.py` 1118-1119, 1148-1154): temperature given. -/
noncomputable def solveTP (o : Obj N) (pureAlphas : Bool) : Option (Obj N × Used N) :=
  match o.T with
  | none => none
  | some T => evaluate o T pureAlphas

open Classical in
/-- `to_TP_zs_fast` (519-551) with `_fast_init_specific` (9860-9862). Copying `a_alpha_roots` comes first (538); the PSRK rule
never sets it, so the `try` block (537-542) ends there and the derivatives are not copied. -/
noncomputable def fast (o : Obj N) (T : ℝ) (zs : Fin N → ℝ) : Option (Obj N × Used N) :=
  let aT := if some T = o.T then o.aT else none
  solveTP ⟨zs, some T, T, zs, none, aT, none⟩ (some T ≠ o.T)

/-! ### Specification -/

/-- The residual Helmholtz energy over `R T` of the Soave-Redlich-Kwong equation at the volume `V`: the integral of
`(P - R T / V) / (R T)` from `V` to infinity with a minus sign. -/
noncomputable def srkResidual (R T a b V : ℝ) : ℝ := -Real.log (1 - b / V) - a / (b * R * T) * Real.log (1 + b / V)

/-- The excess Helmholtz energy over `R T` at the packing `u`: mixture minus pure components, all at `V = u b`. -/
noncomputable def excess (R T u a b : ℝ) (zs as bs : Fin N → ℝ) : ℝ :=
  (srkResidual R T a b (u * b) - Real.log (u * b))
    - ∑ i, zs i * (srkResidual R T (as i) (bs i) (u * bs i) - Real.log (u * bs i))

/-- Everything taken at the temperature `T` and the composition `zs`. -/
def Right (u : Used N) (T : ℝ) (zs : Fin N → ℝ) : Prop := u.aT = T ∧ u.dT = T ∧ u.geT = T ∧ u.geX = zs

/-- The excess Gibbs models kept belong to the composition of the object. -/
def Good (o : Obj N) : Prop := o.geX = o.zs ∧ ∀ t x, o.last = some (t, x) → x = o.zs

/-! ### The mixing rule -/

theorem log_srk_deriv (b V : ℝ) (hb : 0 < b) (hV : b < V) :
    HasDerivAt (fun V => Real.log (1 - b / V)) (b / (V * (V - b))) V ∧
    HasDerivAt (fun V => Real.log (1 + b / V)) (-(b / (V * (V + b)))) V := by
  have hV0 : V ≠ 0 := by linarith
  have h1 : 1 - b / V ≠ 0 := by
    rw [sub_ne_zero]; intro h; rw [eq_div_iff hV0] at h; linarith
  have h2 : 1 + b / V ≠ 0 := by
    have : 0 < b / V := div_pos hb (by linarith)
    linarith
  have hd : HasDerivAt (fun V => b / V) (-(b / V ^ 2)) V := by
    have := (hasDerivAt_inv hV0).const_mul b
    refine (this.congr_of_eventuallyEq ?_).congr_deriv ?_
    · exact Filter.Eventually.of_forall fun x => by simp [div_eq_mul_inv]
    · field_simp
  have e1 : V - b ≠ 0 := by linarith
  have e2 : V + b ≠ 0 := by linarith
  constructor
  · refine ((hd.const_sub 1).log h1).congr_deriv ?_
    field_simp
  · refine ((hd.const_add 1).log h2).congr_deriv ?_
    field_simp

/-- **C129.** The specification is what it should be: the volume derivative of the residual Helmholtz energy is minus the pressure
of the equation of state above that of the ideal gas. -/
theorem C129_residual (R T a b V : ℝ) (hR : R ≠ 0) (hT : T ≠ 0) (hb : 0 < b) (hV : b < V) :
    HasDerivAt (fun V => srkResidual R T a b V)
      (-((R * T / (V - b) - a / (V * (V + b)) - R * T / V) / (R * T))) V := by
  have h := log_srk_deriv b V hb hV
  have e0 : V ≠ 0 := by linarith
  have e1 : V - b ≠ 0 := by linarith
  have e2 : V + b ≠ 0 := by linarith
  have e3 : b ≠ 0 := hb.ne'
  unfold srkResidual
  refine (h.1.neg.fun_sub (h.2.const_mul (a / (b * R * T)))).congr_deriv ?_
  field_simp
  ring

example : HasDerivAt (fun V => srkResidual 8 300 2 1 V)
    (-((8 * 300 / (3 - 1) - 2 / (3 * (3 + 1)) - 8 * 300 / 3) / (8 * 300))) (3 : ℝ) :=
  C129_residual 8 300 2 1 3 (by norm_num) (by norm_num) (by norm_num) (by norm_num)

/-- **C129.** With the logarithm `A = log (u/(u+1))` the attraction parameter of the code makes the excess Helmholtz energy of the
equation of state at the packing `u` equal to the excess Gibbs energy of the model. -/
theorem C129_excess (R T u b A : ℝ) (zs as bs : Fin N → ℝ) (GE : ℝ) (hR : R ≠ 0) (hT : T ≠ 0) (hu : 1 < u) (hb : 0 < b)
    (hbs : ∀ i, 0 < bs i) (hz : ∑ i, zs i = 1) (hA : A = Real.log (u / (u + 1))) :
    excess R T u (aAlpha R A T b zs as bs GE) b zs as bs = GE / (R * T) := by
  have hu0 : 0 < u := by linarith
  have hA0 : A ≠ 0 := by
    rw [hA]
    exact (Real.log_neg (by positivity) (by rw [div_lt_one (by linarith)]; linarith)).ne
  have key : ∀ β : ℝ, 0 < β → Real.log (1 + β / (u * β)) = -A := by
    intro β hβ
    have : 1 + β / (u * β) = (u / (u + 1))⁻¹ := by field_simp
    rw [this, Real.log_inv, hA]
  have key2 : ∀ β : ℝ, 0 < β → 1 - β / (u * β) = 1 - 1 / u := by
    intro β hβ; field_simp
  have key3 : ∀ i, Real.log (b * (1 / bs i)) = Real.log b - Real.log (bs i) := by
    intro i
    rw [mul_one_div, Real.log_div hb.ne' (hbs i).ne']
  have key4 : ∀ β : ℝ, 0 < β → Real.log (u * β) = Real.log u + Real.log β := fun β hβ =>
    Real.log_mul hu0.ne' hβ.ne'
  have hsum : ∑ i, zs i * (srkResidual R T (as i) (bs i) (u * bs i) - Real.log (u * bs i))
      = (-Real.log (1 - 1 / u) - Real.log u) * ∑ i, zs i + A * tot0 R T zs as bs
        - ∑ i, zs i * Real.log (bs i) := by
    unfold tot0
    rw [Finset.mul_sum, Finset.mul_sum, ← Finset.sum_add_distrib, ← Finset.sum_sub_distrib]
    refine Finset.sum_congr rfl fun i _ => ?_
    have := (hbs i).ne'
    unfold srkResidual
    rw [key _ (hbs i), key2 _ (hbs i), key4 _ (hbs i)]
    field_simp
    ring
  have htot : tot1 b zs bs = Real.log b * ∑ i, zs i - ∑ i, zs i * Real.log (bs i) := by
    unfold tot1
    rw [Finset.mul_sum, ← Finset.sum_sub_distrib]
    exact Finset.sum_congr rfl fun i _ => by rw [key3]; ring
  unfold excess
  rw [hsum, hz]
  rw [hz] at htot
  unfold srkResidual aAlpha
  rw [key b hb, key2 b hb, key4 b hb, htot]
  generalize tot0 R T zs as bs = t0
  generalize ∑ i, zs i * Real.log (bs i) = sl
  have := hb.ne'
  field_simp
  ring

example : excess 8 300 1.1 (aAlpha 8 (Real.log (1.1 / (1.1 + 1))) 300 2 (fun _ : Fin 2 => 1 / 2) ![3, 4] ![1, 3] 70) 2
    (fun _ => 1 / 2) ![3, 4] ![1, 3] = 70 / (8 * 300) :=
  C129_excess _ _ _ _ _ _ _ _ _ (by norm_num) (by norm_num) (by norm_num) (by norm_num)
    (by intro i; fin_cases i <;> simp) (by simp) rfl

/-- **C129.** The constant of the code is that logarithm with `u = 1.1`, to fifteen digits. -/
theorem C129_constant : |A - Real.log (1.1 / (1.1 + 1))| < 1e-15 := by
  have h1 := Real.abs_log_sub_add_sum_range_le (x := (5 / 16 : ℝ)) (by norm_num [abs_lt]) 34
  have h2 := Real.abs_log_sub_add_sum_range_le (x := (-5 / 16 : ℝ)) (by norm_num [abs_lt]) 34
  have e : Real.log (1.1 / (1.1 + 1)) = Real.log (1 - 5 / 16) - Real.log (1 - -5 / 16) := by
    rw [← Real.log_div (by norm_num) (by norm_num)]
    norm_num
  rw [e]
  rw [abs_le] at h1 h2
  norm_num [Finset.sum_range_succ] at h1 h2
  unfold A
  rw [abs_lt]
  constructor <;> norm_num <;> linarith [h1.1, h1.2, h2.1, h2.2]

/-- **C129.** A pure component keeps its own attraction parameter: the excess Gibbs energy is zero and the covolume its own. -/
theorem C129_pure (R A T : ℝ) (as bs : Fin N → ℝ) (k : Fin N) (hR : R ≠ 0) (hT : T ≠ 0) (hb : bs k ≠ 0) :
    aAlpha R A T (bs k) (Pi.single k 1) as bs 0 = as k := by
  unfold aAlpha tot0 tot1
  rw [Finset.sum_eq_single k (fun i _ h => by simp [h]) (by simp),
    Finset.sum_eq_single k (fun i _ h => by simp [h]) (by simp)]
  simp only [Pi.single_eq_same]
  rw [mul_one_div_cancel hb, Real.log_one]
  field_simp
  ring

example : aAlpha 8 A 300 (![1, 3] 1) (Pi.single 1 1) ![3, 4] ![1, 3] 0 = 4 :=
  C129_pure 8 A 300 ![3, 4] ![1, 3] 1 (by norm_num) (by norm_num) (by simp)

theorem tot0_eq (R T : ℝ) (zs as bs : Fin N → ℝ) :
    tot0 R T zs as bs = 1 / R * (1 / T) * ∑ i, zs i * as i * (1 / bs i) := by
  unfold tot0
  rw [Finset.mul_sum]
  exact Finset.sum_congr rfl fun i _ => by ring

theorem d1tot_eq (R T : ℝ) (zs as das bs : Fin N → ℝ) :
    d1tot R T zs as das bs = 1 / R * (1 / T) * ∑ i, zs i * das i * (1 / bs i)
      - 1 / R * (1 / T * (1 / T)) * ∑ i, zs i * as i * (1 / bs i) := by
  unfold d1tot
  rw [Finset.mul_sum, Finset.mul_sum, ← Finset.sum_sub_distrib]
  exact Finset.sum_congr rfl fun i _ => by ring

theorem other_eq (T : ℝ) (zs as das bs : Fin N → ℝ) :
    other T zs as das bs = ∑ i, zs i * das i * (1 / bs i) - 1 / T * ∑ i, zs i * as i * (1 / bs i) := by
  unfold other
  rw [Finset.mul_sum, ← Finset.sum_sub_distrib]
  exact Finset.sum_congr rfl fun i _ => by ring

theorem d2tot_eq (T : ℝ) (zs as das d2as bs : Fin N → ℝ) :
    d2tot T zs as das d2as bs = ∑ i, zs i * d2as i * (1 / bs i) - 2 * (1 / T) * ∑ i, zs i * das i * (1 / bs i)
      + 2 * (1 / T * (1 / T)) * ∑ i, zs i * as i * (1 / bs i) := by
  unfold d2tot
  rw [Finset.mul_sum, Finset.mul_sum, ← Finset.sum_sub_distrib, ← Finset.sum_add_distrib]
  exact Finset.sum_congr rfl fun i _ => by ring

/-- The value without the divisions by the temperature. -/
theorem aAlpha_eq (R A T b : ℝ) (zs as bs : Fin N → ℝ) (GE : ℝ) (hR : R ≠ 0) (hT : T ≠ 0) :
    aAlpha R A T b zs as bs GE
      = b * (∑ i, zs i * as i * (1 / bs i) + 1 / A * (GE + R * T * tot1 b zs bs)) := by
  unfold aAlpha
  rw [tot0_eq]
  generalize ∑ i, zs i * as i * (1 / bs i) = s
  generalize 1 / A = w
  field_simp

/-- The first derivative without the divisions by the temperature. -/
theorem daAlpha_eq (R A T b : ℝ) (zs as das bs : Fin N → ℝ) (GE dGE : ℝ) (hR : R ≠ 0) (hT : T ≠ 0) :
    daAlpha R A T b zs as das bs GE dGE
      = b * (∑ i, zs i * das i * (1 / bs i) + 1 / A * (dGE + R * tot1 b zs bs)) := by
  unfold daAlpha
  rw [d1tot_eq, aAlpha_eq _ _ _ _ _ _ _ _ hR hT]
  generalize ∑ i, zs i * as i * (1 / bs i) = s
  generalize ∑ i, zs i * das i * (1 / bs i) = s'
  generalize 1 / A = w
  field_simp
  ring

/-- The second derivative without the divisions by the temperature. -/
theorem d2aAlpha_eq (A T b : ℝ) (zs as das d2as bs : Fin N → ℝ) (GE dGE d2GE : ℝ) :
    d2aAlpha A T b zs as das d2as bs GE dGE d2GE
      = b * (∑ i, zs i * d2as i * (1 / bs i) + 1 / A * d2GE) := by
  unfold d2aAlpha
  rw [d2tot_eq, other_eq]
  ring

/-- **C129.** `da_alpha_dT` is the temperature derivative of `a_alpha`. -/
theorem C129_first (R A T b : ℝ) (zs bs : Fin N → ℝ) (as : Fin N → ℝ → ℝ) (das : Fin N → ℝ) (GE : ℝ → ℝ) (dGE : ℝ)
    (hR : R ≠ 0) (hT : T ≠ 0) (ha : ∀ i, HasDerivAt (as i) (das i) T) (hG : HasDerivAt GE dGE T) :
    HasDerivAt (fun t => aAlpha R A t b zs (fun i => as i t) bs (GE t))
      (daAlpha R A T b zs (fun i => as i T) das bs (GE T) dGE) T := by
  rw [daAlpha_eq _ _ _ _ _ _ _ _ _ _ hR hT]
  have h1 : HasDerivAt (fun t => ∑ i, zs i * as i t * (1 / bs i)) (∑ i, zs i * das i * (1 / bs i)) T :=
    HasDerivAt.fun_sum fun i _ => ((ha i).const_mul (zs i)).mul_const (1 / bs i)
  have h2 : HasDerivAt (fun t : ℝ => R * t * tot1 b zs bs) (R * tot1 b zs bs) T := by
    refine (((hasDerivAt_id T).const_mul R).mul_const (tot1 b zs bs)).congr_deriv ?_
    ring
  have h3 := (h1.fun_add ((hG.fun_add h2).const_mul (1 / A))).const_mul b
  refine h3.congr_of_eventuallyEq ?_
  filter_upwards [isOpen_ne.mem_nhds hT] with t ht
  rw [aAlpha_eq _ _ _ _ _ _ _ _ hR ht]

/-- **C129.** `d2a_alpha_dT2` is the temperature derivative of `da_alpha_dT`. -/
theorem C129_second (R A T b : ℝ) (zs bs : Fin N → ℝ) (as das : Fin N → ℝ → ℝ) (d2as : Fin N → ℝ) (GE dGE : ℝ → ℝ)
    (d2GE : ℝ) (hR : R ≠ 0) (hT : T ≠ 0) (ha : ∀ i, HasDerivAt (das i) (d2as i) T) (hG : HasDerivAt dGE d2GE T) :
    HasDerivAt (fun t => daAlpha R A t b zs (fun i => as i t) (fun i => das i t) bs (GE t) (dGE t))
      (d2aAlpha A T b zs (fun i => as i T) (fun i => das i T) d2as bs (GE T) (dGE T) d2GE) T := by
  rw [d2aAlpha_eq]
  have h1 : HasDerivAt (fun t => ∑ i, zs i * das i t * (1 / bs i)) (∑ i, zs i * d2as i * (1 / bs i)) T :=
    HasDerivAt.fun_sum fun i _ => ((ha i).const_mul (zs i)).mul_const (1 / bs i)
  have h3 := (h1.fun_add ((hG.add_const (R * tot1 b zs bs)).const_mul (1 / A))).const_mul b
  refine h3.congr_of_eventuallyEq ?_
  filter_upwards [isOpen_ne.mem_nhds hT] with t ht
  rw [daAlpha_eq _ _ _ _ _ _ _ _ _ _ hR ht]

example : HasDerivAt (fun t => aAlpha 8 A t 2 (fun _ : Fin 2 => 1 / 2) (fun _ => 5 * t) ![1, 3] (t * t))
    (daAlpha 8 A 300 2 (fun _ => 1 / 2) (fun _ => 5 * 300) (fun _ => 5) ![1, 3] (300 * 300) (300 + 300)) 300 := by
  refine C129_first 8 A 300 2 (fun _ => 1 / 2) ![1, 3] (fun _ t => 5 * t) (fun _ => 5) (fun t => t * t) _ (by norm_num)
    (by norm_num) (fun _ => ?_) ?_
  · simpa using (hasDerivAt_id (300 : ℝ)).const_mul 5
  · simpa using (hasDerivAt_id (300 : ℝ)).fun_mul (hasDerivAt_id (300 : ℝ))

example : HasDerivAt (fun t => daAlpha 8 A t 2 (fun _ : Fin 2 => 1 / 2) (fun _ => 5 * t) (fun _ => 5) ![1, 3] (t * t) (2 * t))
    (d2aAlpha A 300 2 (fun _ => 1 / 2) (fun _ => 5 * 300) (fun _ => 5) (fun _ => 0) ![1, 3] (300 * 300) (2 * 300) 2) 300 := by
  refine C129_second 8 A 300 2 (fun _ => 1 / 2) ![1, 3] (fun _ t => 5 * t) (fun _ _ => 5) (fun _ => 0) (fun t => t * t)
    (fun t => 2 * t) 2 (by norm_num) (by norm_num) (fun _ => hasDerivAt_const _ _) ?_
  simpa using (hasDerivAt_id (300 : ℝ)).const_mul 2

/-- **C129.** Without translation the covolume of the mixture is the mole average, so that all hypotheses of the rule hold; a volume
translation proportional to the covolumes rescales the size term. -/
theorem C129_covolume (zs b0s : Fin N → ℝ) (k : Fin N) :
    bOf zs b0s (fun _ => 0) = ∑ i, zs i * bsOf b0s (fun _ => 0) i ∧
    (∀ cs, bOf zs b0s cs = ∑ i, zs i * bsOf b0s cs i) ∧
    ∀ cs, bOf (Pi.single k 1) b0s cs = bsOf b0s cs k := by
  have h : ∀ (zs cs : Fin N → ℝ), bOf zs b0s cs = ∑ i, zs i * bsOf b0s cs i := by
    intro zs cs
    unfold bOf bsOf
    rw [← Finset.sum_sub_distrib]
    exact Finset.sum_congr rfl fun i _ => by ring
  refine ⟨h _ _, h _, fun cs => ?_⟩
  rw [h, Finset.sum_eq_single k (fun i _ hi => by simp [hi]) (by simp)]
  simp

example : bOf (Pi.single 1 1) ![1, 3] ![1 / 2, 1] = 2 := by
  rw [(C129_covolume (fun _ : Fin 2 => 1 / 2) ![1, 3] 1).2.2]
  simp [bsOf]; norm_num

/-- **C129.** The negation of "a volume translation leaves the attraction parameter alone": the rule is fed the translated
covolumes, so constants `cs` change `a_alpha` and with it every phase equilibrium. -/
theorem C129_translation_fails :
    ∃ (zs as b0s cs : Fin 2 → ℝ), (∀ i, 0 < bsOf b0s cs i) ∧ ∑ i, zs i = 1 ∧
      aAlpha 8 A 300 (bOf zs b0s cs) zs as (bsOf b0s cs) 0
        ≠ aAlpha 8 A 300 (bOf zs b0s fun _ => 0) zs as (bsOf b0s fun _ => 0) 0 := by
  refine ⟨fun _ => 1 / 2, ![3, 4], ![1, 3], ![1 / 2, 3 / 2], ?_, by simp, ?_⟩
  · intro i; fin_cases i <;> simp [bsOf] <;> norm_num
  · rw [aAlpha_eq _ _ _ _ _ _ _ _ (by norm_num) (by norm_num), aAlpha_eq _ _ _ _ _ _ _ _ (by norm_num) (by norm_num)]
    have hA : A ≠ 0 := by unfold A; norm_num
    have hl : 0 < Real.log 2 + Real.log (2 / 3) := by
      rw [← Real.log_mul (by norm_num) (by norm_num)]
      exact Real.log_pos (by norm_num)
    have e1 : tot1 (bOf (fun _ => 1 / 2) ![1, 3] ![1 / 2, 3 / 2]) (fun _ => 1 / 2) (bsOf ![1, 3] ![1 / 2, 3 / 2])
        = 1 / 2 * (Real.log 2 + Real.log (2 / 3)) := by
      simp only [tot1, bOf, bsOf, Fin.sum_univ_two, Matrix.cons_val_zero, Matrix.cons_val_one]
      norm_num
      ring
    have e2 : tot1 (bOf (fun _ => 1 / 2) ![1, 3] fun _ => 0) (fun _ => 1 / 2) (bsOf ![1, 3] fun _ => 0)
        = 1 / 2 * (Real.log 2 + Real.log (2 / 3)) := by
      simp only [tot1, bOf, bsOf, Fin.sum_univ_two, Matrix.cons_val_zero, Matrix.cons_val_one]
      norm_num
      ring
    rw [e1, e2]
    generalize Real.log 2 + Real.log (2 / 3) = l at hl
    simp only [bOf, bsOf, Fin.sum_univ_two, Matrix.cons_val_zero, Matrix.cons_val_one]
    intro h
    have hw : (1 / A) * l ≠ 0 := mul_ne_zero (by simpa using hA) hl.ne'
    generalize 1 / A = w at h hw
    apply hw
    norm_num at h
    linear_combination (-1 / 1200 : ℝ) * h

/-! ### The state of the excess Gibbs model -/

/-- **C129.** A new object keeps an excess Gibbs model of its own composition; with a temperature given the model has it. -/
theorem C129_construct (zs : Fin N → ℝ) (T : Option ℝ) (geT : ℝ) (geX : Fin N → ℝ) :
    let o := construct zs T geT geX
    Good o ∧ o.zs = zs ∧ o.T = T ∧ ∀ t, T = some t → o.geT = t := by
  unfold construct
  split_ifs with h
  · refine ⟨⟨rfl, by simp⟩, rfl, rfl, ?_⟩
    rintro t rfl; rfl
  · push Not at h
    refine ⟨⟨h.1.symm, by simp⟩, rfl, rfl, ?_⟩
    rintro t rfl
    simpa using h.2

/-- **C129.** One evaluation: everything is at the temperature asked for and at the composition of the object, which stays good and
keeps its own model. -/
theorem C129_evaluate (o : Obj N) (T : ℝ) (hg : Good o) :
    ∃ o' u, evaluate o T true = some (o', u) ∧ Right u T o.zs ∧ Good o' ∧ o'.zs = o.zs ∧ o'.T = o.T ∧
      o'.geT = o.geT ∧ o'.aT = some T ∧ o'.dT = some T := by
  unfold evaluate
  dsimp only [if_true]
  by_cases h : T = o.geT
  · refine ⟨{ o with aT := some T, dT := some T }, ⟨T, T, o.geT, o.geX⟩, ?_, ⟨rfl, rfl, h.symm, hg.1⟩, hg, rfl, rfl, rfl, rfl,
      rfl⟩
    simp [h]
  · refine ⟨{ o with aT := some T, dT := some T, last := some (T, o.zs) }, ⟨T, T, T, o.zs⟩, ?_, ⟨rfl, rfl, rfl, rfl⟩, ?_, rfl, rfl,
      rfl, rfl, rfl⟩
    · simp [h]
    · refine ⟨hg.1, ?_⟩
      intro t x e
      simp only [Option.some.injEq, Prod.mk.injEq] at e
      exact e.2.symm

theorem evaluations_good (ts : List ℝ) : ∀ o : Obj N, Good o →
    ∃ o', evaluations o ts = some o' ∧ Good o' ∧ o'.zs = o.zs ∧ o'.T = o.T := by
  induction ts with
  | nil => exact fun o hg => ⟨o, rfl, hg, rfl, rfl⟩
  | cons t ts ih =>
    intro o hg
    obtain ⟨o1, u, h1, -, g1, z1, T1, -⟩ := C129_evaluate o t hg
    obtain ⟨o2, h2, g2, z2, T2⟩ := ih o1 g1
    refine ⟨o2, ?_, g2, z2.trans z1, T2.trans T1⟩
    unfold evaluations
    rw [h1]
    exact h2

/-- **C129.** However the temperature is iterated, `solve_T` leaves the excess Gibbs model at the solution and at the composition of
the object. -/
theorem C129_solve_T (o : Obj N) (tried : List ℝ) (T : ℝ) (hg : Good o) :
    ∃ o', solveT o tried T = some o' ∧ Good o' ∧ o'.zs = o.zs ∧ o'.geT = T := by
  obtain ⟨o1, h1, g1, z1, -⟩ := evaluations_good tried o hg
  unfold solveT
  rw [h1]
  dsimp only
  rcases hl : o1.last with _ | ⟨t, x⟩
  · exact ⟨_, rfl, ⟨rfl, by simp [hl]⟩, z1, rfl⟩
  · dsimp only
    split_ifs with h
    · exact ⟨_, rfl, ⟨g1.2 t x hl, by simp⟩, z1, h⟩
    · refine ⟨_, rfl, ⟨rfl, ?_⟩, z1, rfl⟩
      intro t' x' e
      exact g1.2 t' x' (hl.trans e)

/-- **C129.** Every specification of a new object: the attraction parameter and its derivatives are taken at the temperature of the
object and at its composition, whatever state the excess Gibbs model given was in. -/
theorem C129_solved (zs : Fin N → ℝ) (geT : ℝ) (geX : Fin N → ℝ) (T : ℝ) (tried : List ℝ) :
    (∃ o u, solveTP (construct zs (some T) geT geX) true = some (o, u) ∧ Right u T zs ∧ o.T = some T ∧ o.geT = T) ∧
    (∃ o u, solvePV (construct zs none geT geX) tried T true = some (o, u) ∧ Right u T zs ∧ o.T = some T ∧ o.geT = T) := by
  constructor
  · obtain ⟨g, z, t, e⟩ := C129_construct zs (some T) geT geX
    obtain ⟨o, u, h, r, -, z', t', ge', -⟩ := C129_evaluate _ T g
    refine ⟨o, u, ?_, ?_, t'.trans t, ge'.trans (e T rfl)⟩
    · unfold solveTP; rw [t]; exact h
    · rw [z] at r; exact r
  · obtain ⟨g, z, t, e⟩ := C129_construct zs none geT geX
    obtain ⟨o1, h1, g1, z1, ge1⟩ := C129_solve_T _ tried T g
    obtain ⟨o, u, h, r, -, z', t', ge', -⟩ := C129_evaluate { o1 with T := some T } T g1
    refine ⟨o, u, ?_, ?_, t', ge'.trans ge1⟩
    · unfold solvePV; rw [h1]; exact h
    · have : o1.zs = zs := z1.trans z
      rw [← this]; exact r

example : ∃ o u, solvePV (construct (fun _ : Fin 2 => (1 / 2 : ℝ)) none 300 ![1, 0]) [280, 310, 298.15, 305] 305 true
    = some (o, u) ∧ Right u 305 (fun _ => 1 / 2) ∧ o.T = some 305 ∧ o.geT = 305 :=
  (C129_solved _ _ _ _ _).2

/-- **C129** (partial). `to_TP_zs_fast` to another temperature takes everything at the new temperature and composition. Missing: the
same temperature, `C129_fast_fails`. -/
theorem C129_fast_partial (o : Obj N) (T : ℝ) (zs : Fin N → ℝ) (hT : o.T ≠ some T) :
    ∃ o' u, fast o T zs = some (o', u) ∧ Right u T zs ∧ o'.T = some T ∧ o'.zs = zs ∧ Good o' := by
  obtain ⟨o', u, h, r, g, z, t, -⟩ :=
    C129_evaluate (⟨zs, some T, T, zs, none, none, none⟩ : Obj N) T ⟨rfl, by simp⟩
  refine ⟨o', u, ?_, r, t, z, g⟩
  unfold fast solveTP
  have h' : ¬ some T = o.T := fun e => hT e.symm
  simp only [h', if_false, ne_eq, not_false_eq_true, decide_true]
  exact h

example : ∃ o' u, fast (⟨fun _ => 1 / 2, some 300, 300, fun _ => 1 / 2, none, some 300, some 300⟩ : Obj 2) 310 ![0, 1]
    = some (o', u) ∧ Right u 310 ![0, 1] ∧ o'.T = some 310 ∧ o'.zs = ![0, 1] ∧ Good o' :=
  C129_fast_partial _ _ _ (by norm_num)

/-- **C129.** The negation of "`to_TP_zs_fast` works at the temperature of the object": from any object, solved or not, changing only
pressure or composition raises `AttributeError`, since the derivatives of the pure parameters are not carried over. -/
theorem C129_fast_fails (o : Obj N) (T : ℝ) (zs : Fin N → ℝ) (hT : o.T = some T) : fast o T zs = none := by
  unfold fast solveTP
  rw [hT]
  simp only [if_true, ne_eq, not_true_eq_false, decide_false]
  unfold evaluate
  simp only [Bool.false_eq_true, if_false]
  cases o.aT <;> rfl

example : fast (⟨fun _ => 1 / 2, some 300, 300, fun _ => 1 / 2, none, some 300, some 300⟩ : Obj 2) 300 ![0, 1] = none :=
  C129_fast_fails _ _ _ rfl

/-- **C129.** Asked for other temperatures first, the object evaluates its own temperature as before: nothing is left behind in the
excess Gibbs model. But without `pure_a_alphas` the pure parameters of the last temperature asked for are used. -/
theorem C129_reused (o : Obj N) (T T' : ℝ) (hg : Good o) :
    ∃ o', evaluations o [T'] = some o' ∧
      (∃ o'' u, evaluate o' T true = some (o'', u) ∧ Right u T o.zs) ∧
      ∃ o'' u, evaluate o' T false = some (o'', u) ∧ u.aT = T' ∧ u.geT = T ∧ u.geX = o.zs := by
  obtain ⟨o1, u1, h1, -, g1, z1, -, ge1, a1, d1⟩ := C129_evaluate o T' hg
  refine ⟨o1, by simp [evaluations, h1], ?_, ?_⟩
  · obtain ⟨o2, u2, h2, r2, -⟩ := C129_evaluate o1 T g1
    exact ⟨o2, u2, h2, z1 ▸ r2⟩
  · unfold evaluate
    simp only [Bool.false_eq_true, if_false, a1, d1]
    by_cases h : T = o1.geT
    · exact ⟨o1, ⟨T', T', o1.geT, o1.geX⟩, by simp [h], rfl, h.symm, g1.1.trans z1⟩
    · exact ⟨_, ⟨T', T', T, o1.zs⟩, by simp [h]; rfl, rfl, rfl, z1⟩

example : ∃ o', evaluations (⟨fun _ => 1 / 2, some 300, 300, fun _ => 1 / 2, none, some 300, some 300⟩ : Obj 2) [350] = some o' ∧
      (∃ o'' u, evaluate o' 300 true = some (o'', u) ∧ Right u 300 (fun _ => 1 / 2)) ∧
      ∃ o'' u, evaluate o' 300 false = some (o'', u) ∧ u.aT = 350 ∧ u.geT = 300 ∧ u.geX = fun _ => 1 / 2 :=
  C129_reused _ _ _ ⟨rfl, by simp⟩

end Verif.PSRK
