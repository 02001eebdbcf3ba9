import Verif.Eos.Alpha
import Verif.Eos.MixDerivs
import Mathlib.Tactic

/-!
# Lists and arrays in mixture equations of state (`thermo/eos_mix.py`)

C158: a mixture equation of state has the same parameters whether critical constants and compositions are lists or numpy arrays,
and the array forms of derivatives are the derivatives.

* The constructors of `RKMIX` (6518-6556), `PRMIX` (6864-6908), `SRKMIX` (8666-8704), `PRMIXTranslatedConsistent` (8478-8545) and
  `SRKMIXTranslatedConsistent` (9450-9520) up to the covolume, and the product in `fugacities` (1474-1497);
* `d2b_dninjs` (2765-2770), `d3b_dninjnks` (2822-2830), array branches; `a_alpha_and_derivatives_numpy` (1150-1187);
* `PRMIX.d3a_alpha_dT3`, `d3a_alpha_dT3_vectorized` (6983-7041).

A container is a list or an array. A float times a list, a list plus a float, and a product or quotient of two lists raise
`TypeError`; an array combined with anything is an array. `numpy.max` and `numpy.min`, which the module names `npmax` and `npmin`
(287-288), take an axis as second argument and raise if it is not an integer. An exception is `none`. The solution for volumes
between the covolume and the fugacities is not modelled here.
-/

namespace Verif.Containers

open Finset

variable {n : ℕ}

/-! ## Containers -/

/-- A list or an array. -/
inductive Box (n : ℕ) | list (v : Fin n → ℝ) | arr (v : Fin n → ℝ)

/-- The numbers in it. -/
def Box.val : Box n → Fin n → ℝ
  | .list v => v
  | .arr v => v

/-- `type(x) is ndarray`. -/
def Box.isArr : Box n → Bool
  | .list _ => false
  | .arr _ => true

/-- A float times a container. -/
def scal (c : ℝ) : Box n → Option (Box n)
  | .list _ => none
  | .arr v => some (.arr fun i => c * v i)

/-- A container plus a float. -/
def addS (x : Box n) (c : ℝ) : Option (Box n) :=
  match x with
  | .list _ => none
  | .arr v => some (.arr fun i => v i + c)

/-- An operation on two containers. -/
def binary (f : ℝ → ℝ → ℝ) (x y : Box n) : Option (Box n) :=
  if x.isArr || y.isArr then some (.arr fun i => f (x.val i) (y.val i)) else none

/-- `numpy.max(x, axis)`, `numpy.min(x, axis)` of one-dimensional data: only the axes 0 and -1 exist. -/
noncomputable def reduce (f : Box n → ℝ) (x : Box n) (axis : ℝ) : Option ℝ := open Classical in if axis = 0 ∨ axis = -1 then some (f x) else none

/-- The arguments of a constructor. -/
structure Args (n : ℕ) where
  (Tcs Pcs omegas zs : Box n)

/-- The parameters computed: covolumes, attractions, shape of the attraction function, covolume of the mixture. -/
@[ext] structure Res (n : ℕ) where
  (bs ais shape : Fin n → ℝ)
  b : ℝ

/-- `fugacities` (1477-1485): the product of composition, pressure and coefficients. -/
def fugacities (vectorized : Bool) (P : ℝ) (phis : Fin n → ℝ) (zs : Box n) : Option (Fin n → ℝ) :=
  if vectorized then do
    let x ← scal P zs
    let y ← binary (· * ·) x (.arr phis)
    some y.val
  else some fun i => phis i * zs.val i * P

/-- `RKMIX` (6526-6550); `c2R` and `k` are the class constants `c2R`, `c1R2_c2R`. -/
noncomputable def rk (c2R k : ℝ) (g : Args n) : Option (Bool × Res n) :=
  if g.zs.isArr then do
    let t ← scal c2R g.Tcs
    let bs ← binary (· / ·) t g.Pcs
    let u ← scal k g.Tcs
    let ais ← binary (· * ·) u bs
    let w ← binary (· * ·) bs g.zs
    some (true, ⟨bs.val, ais.val, fun _ => 0, ∑ i, w.val i⟩)
  else
    let bs := fun i => c2R * g.Tcs.val i / g.Pcs.val i
    some (false, ⟨bs, fun i => k * g.Tcs.val i * bs i, fun _ => 0, ∑ i, bs i * g.zs.val i⟩)

/-- `PRMIX` (6888-6901): the container of the critical temperatures decides. -/
noncomputable def pr (c2R k : ℝ) (g : Args n) : Option (Bool × Res n) :=
  if g.Tcs.isArr then do
    let t ← scal c2R g.Tcs
    let bs ← binary (· / ·) t g.Pcs
    let u ← scal k g.Tcs
    let ais ← binary (· * ·) u bs
    let o1 ← scal (-0.26992) g.omegas
    let o2 ← addS o1 1.54226
    let o3 ← binary (· * ·) g.omegas o2
    let kappas ← addS o3 0.37464
    let w ← binary (· * ·) bs g.zs
    some (true, ⟨bs.val, ais.val, kappas.val, ∑ i, w.val i⟩)
  else
    let bs := fun i => c2R * g.Tcs.val i / g.Pcs.val i
    some (false, ⟨bs, fun i => k * g.Tcs.val i * bs i, fun i => g.omegas.val i * (-0.26992 * g.omegas.val i + 1.54226) + 0.37464,
      ∑ i, bs i * g.zs.val i⟩)

/-- `SRKMIX` (8674-8700); `c1R2`, `c2R` are class constants. -/
noncomputable def srk (c1R2 c2R : ℝ) (g : Args n) : Option (Bool × Res n) :=
  if g.zs.isArr then do
    let ratio ← binary (· / ·) g.Tcs g.Pcs
    let u ← scal c1R2 g.Tcs
    let ais ← binary (· * ·) u ratio
    let bs ← scal c2R ratio
    let o1 ← scal (-0.176) g.omegas
    let o2 ← addS o1 1.574
    let o3 ← binary (· * ·) g.omegas o2
    let ms ← addS o3 0.480
    let w ← binary (· * ·) bs g.zs
    some (true, ⟨bs.val, ais.val, ms.val, ∑ i, w.val i⟩)
  else
    let bs := fun i => c2R * g.Tcs.val i / g.Pcs.val i
    some (false, ⟨bs, fun i => c1R2 * g.Tcs.val i * g.Tcs.val i / g.Pcs.val i,
      fun i => g.omegas.val i * (1.574 - 0.176 * g.omegas.val i) + 0.480, ∑ i, bs i * g.zs.val i⟩)

/-- A mixture is made: the parameters, then the fugacities. -/
noncomputable def make (params : Args n → Option (Bool × Res n)) (P : ℝ) (phis : Fin n → ℝ) (g : Args n) : Option (Res n) := do
  let r ← params g
  let _ ← fugacities r.1 P phis g.zs
  some r.2

/-- **C158.** The fugacities do not depend on the container of the composition. -/
theorem C158_fugacities {v : Bool} {P : ℝ} {phis : Fin n → ℝ} {zs : Box n} {f : Fin n → ℝ} (h : fugacities v P phis zs = some f) (i : Fin n) :
    f i = zs.val i * phis i * P := by
  cases v <;> cases zs <;> simp [fugacities, scal, binary, Box.isArr, Box.val] at h ⊢ <;> subst h <;> ring

example : fugacities true 2 ![3, 5] (.arr ![0.25, 0.75]) ≠ none := by simp [fugacities, scal, binary, Box.isArr]

/-- **C158.** Redlich-Kwong: every mixture that is made has the parameters of the equation; made are those of which the composition
is a list or the critical temperatures are an array. -/
theorem C158_rk (c2R k P : ℝ) (phis : Fin n → ℝ) (g : Args n) :
    (∀ r, make (rk c2R k) P phis g = some r → (∀ i, r.bs i = c2R * g.Tcs.val i / g.Pcs.val i)
        ∧ (∀ i, r.ais i = k * g.Tcs.val i * (c2R * g.Tcs.val i / g.Pcs.val i))
        ∧ r.b = ∑ i, c2R * g.Tcs.val i / g.Pcs.val i * g.zs.val i)
      ∧ ((make (rk c2R k) P phis g).isSome = true ↔ g.zs.isArr = false ∨ g.Tcs.isArr = true) := by
  obtain ⟨T, Q, o, z⟩ := g
  constructor
  · intro r h
    cases T <;> cases Q <;> cases z <;> simp [make, rk, scal, binary, Box.isArr, Box.val, fugacities] at h <;> subst h <;>
      exact ⟨fun i => rfl, fun i => rfl, rfl⟩
  · cases T <;> cases Q <;> cases z <;> simp [make, rk, scal, binary, Box.isArr, fugacities]

/-- **C158.** Peng-Robinson: made are those of which the critical temperatures are a list, or all but the critical pressures
arrays. -/
theorem C158_pr (c2R k P : ℝ) (phis : Fin n → ℝ) (g : Args n) :
    (∀ r, make (pr c2R k) P phis g = some r → (∀ i, r.bs i = c2R * g.Tcs.val i / g.Pcs.val i)
        ∧ (∀ i, r.ais i = k * g.Tcs.val i * (c2R * g.Tcs.val i / g.Pcs.val i))
        ∧ (∀ i, r.shape i = 0.37464 + 1.54226 * g.omegas.val i - 0.26992 * g.omegas.val i ^ 2)
        ∧ r.b = ∑ i, c2R * g.Tcs.val i / g.Pcs.val i * g.zs.val i)
      ∧ ((make (pr c2R k) P phis g).isSome = true
        ↔ g.Tcs.isArr = false ∨ (g.omegas.isArr = true ∧ g.zs.isArr = true)) := by
  obtain ⟨T, Q, o, z⟩ := g
  constructor
  · intro r h
    cases T <;> cases Q <;> cases o <;> cases z <;> simp [make, pr, scal, addS, binary, Box.isArr, Box.val, fugacities] at h <;>
      subst h <;> refine ⟨fun i => rfl, fun i => rfl, fun i => ?_, rfl⟩ <;> dsimp only [Box.val] <;> ring
  · cases T <;> cases Q <;> cases o <;> cases z <;> simp [make, pr, scal, addS, binary, Box.isArr, fugacities]

/-- **C158.** Soave: made are those of which the composition is a list, or all but the critical pressures arrays. -/
theorem C158_srk (c1R2 c2R P : ℝ) (phis : Fin n → ℝ) (g : Args n) :
    (∀ r, make (srk c1R2 c2R) P phis g = some r → (∀ i, r.bs i = c2R * g.Tcs.val i / g.Pcs.val i)
        ∧ (∀ i, r.ais i = c1R2 * g.Tcs.val i ^ 2 / g.Pcs.val i)
        ∧ (∀ i, r.shape i = 0.480 + 1.574 * g.omegas.val i - 0.176 * g.omegas.val i ^ 2)
        ∧ r.b = ∑ i, c2R * g.Tcs.val i / g.Pcs.val i * g.zs.val i)
      ∧ ((make (srk c1R2 c2R) P phis g).isSome = true
        ↔ g.zs.isArr = false ∨ (g.omegas.isArr = true ∧ g.Tcs.isArr = true)) := by
  obtain ⟨T, Q, o, z⟩ := g
  constructor
  · intro r h
    cases T <;> cases Q <;> cases o <;> cases z <;> simp [make, srk, scal, addS, binary, Box.isArr, Box.val, fugacities] at h <;>
      subst h <;>
      refine ⟨fun i => ?_, fun i => ?_, fun i => ?_, ?_⟩ <;> dsimp only [Box.val] <;>
      first | ring1 | exact Finset.sum_congr rfl fun i _ => by ring1
  · cases T <;> cases Q <;> cases o <;> cases z <;> simp [make, srk, scal, addS, binary, Box.isArr, fugacities]

/-- **C158.** The mark for arrays follows the composition for Redlich-Kwong and Soave, and the critical temperatures for
Peng-Robinson. -/
theorem C158_mark (a b : ℝ) (g : Args n) (x : Bool × Res n) :
    (rk a b g = some x → x.1 = g.zs.isArr) ∧ (pr a b g = some x → x.1 = g.Tcs.isArr) ∧ (srk a b g = some x → x.1 = g.zs.isArr) := by
  obtain ⟨T, Q, o, z⟩ := g
  refine ⟨fun h => ?_, fun h => ?_, fun h => ?_⟩
  · cases T <;> cases Q <;> cases z <;> simp [rk, scal, binary, Box.isArr] at h <;> rw [← h] <;> rfl
  · cases T <;> cases Q <;> cases o <;> cases z <;> simp [pr, scal, addS, binary, Box.isArr] at h <;> rw [← h] <;> rfl
  · cases T <;> cases Q <;> cases o <;> cases z <;> simp [srk, scal, addS, binary, Box.isArr] at h <;> rw [← h] <;> rfl

example : (make (pr 1 1) 1 (fun _ => 1) (n := 2) ⟨.arr ![300, 400], .list ![1, 2], .arr ![0, 0.1], .arr ![0.5, 0.5]⟩).isSome = true :=
  (C158_pr _ _ _ _ _).2.mpr (Or.inr ⟨rfl, rfl⟩)

/-- **C158 fails.** The same lists and arrays make a mixture of one equation and not of another: lists of constants with an array
of compositions, and the reverse. -/
theorem C158_mixed_fails (a b c d e f P : ℝ) (phis T Q o z : Fin n → ℝ) :
    let g : Args n := ⟨.list T, .list Q, .list o, .arr z⟩
    let g' : Args n := ⟨.arr T, .arr Q, .arr o, .list z⟩
    (make (pr a b) P phis g).isSome = true ∧ make (srk c d) P phis g = none ∧ make (rk e f) P phis g = none
      ∧ make (pr a b) P phis g' = none ∧ (make (srk c d) P phis g').isSome = true ∧ (make (rk e f) P phis g').isSome = true := by
  simp [make, pr, srk, rk, scal, addS, binary, Box.isArr, Box.val, fugacities]

/-! ## Default translations -/

/-- The acentric factor within limits, as the list branches take it (8512, 9483). -/
noncomputable def clamp (hi w : ℝ) : ℝ := min (max w (-0.01)) hi

/-- The greatest entry of a container. -/
noncomputable def greatest (x : Box n) : ℝ := if h : (univ : Finset (Fin n)).Nonempty then univ.sup' h x.val else 0

/-- Default translations of `PRMIXTranslatedConsistent` (8508-8513) and `SRKMIXTranslatedConsistent` (9479-9484); `p`, `q` and `hi`
are their numbers. In the array branch the reductions of numpy stand for elementwise limits. -/
noncomputable def translations (R p q hi : ℝ) (g : Args n) : Option (Fin n → ℝ) :=
  if g.zs.isArr then do
    let t ← scal R g.Tcs
    let u ← binary (· / ·) t g.Pcs
    let m ← reduce greatest g.omegas (-0.01)
    let l ← reduce (fun _ => m) g.omegas hi
    let w ← scal (p * l + q) u
    some w.val
  else some fun i => R * g.Tcs.val i / g.Pcs.val i * (p * clamp hi (g.omegas.val i) + q)

/-- The covolumes of these classes, with the translations of the user or the default ones. -/
noncomputable def consistent (c2R R p q hi : ℝ) (cs : Option (Fin n → ℝ)) (g : Args n) : Option (Fin n → ℝ) := do
  let b0 ← rk c2R 0 g
  let c ← (match cs with | some c => some c | none => translations R p q hi g)
  some fun i => b0.2.bs i - c i

/-- **C158, partial.** The consistent classes have the covolumes of their equation for lists of compositions, and for arrays if
translations are given. Missing: arrays without translations. -/
theorem C158_consistent_partial (c2R R p q hi : ℝ) (cs : Option (Fin n → ℝ)) (g : Args n) (h : g.zs.isArr = false ∨ (g.Tcs.isArr = true ∧ cs ≠ none)) :
    ∃ bs, consistent c2R R p q hi cs g = some bs
      ∧ ∀ i, bs i = c2R * g.Tcs.val i / g.Pcs.val i
        - cs.elim (R * g.Tcs.val i / g.Pcs.val i * (p * min (max (g.omegas.val i) (-0.01)) hi + q)) (· i) := by
  obtain ⟨T, Q, o, z⟩ := g
  cases T <;> cases z <;> cases cs <;> simp [consistent, rk, translations, scal, binary, Box.isArr, Box.val, clamp] at h ⊢

/-- **C158 fails.** With arrays and no translations given, the consistent classes cannot be made, as `numpy.max` is given a
limit for its axis. -/
theorem C158_consistent_fails (c2R R p q hi : ℝ) (g : Args n) (h : g.zs.isArr = true) :
    consistent c2R R p q hi none g = none := by
  obtain ⟨T, Q, o, z⟩ := g
  cases T <;> cases z <;> simp [consistent, rk, translations, scal, binary, Box.isArr, reduce] at h ⊢
  norm_num
  intro a ha
  cases ha

/-! ## Derivatives of the covolume -/

/-- `d2b_dninjs` (2765-2770): a constant matrix, entries of the last axis changed, transposed, and again. -/
def d2b (b : ℝ) (bs : Fin n → ℝ) : Fin n → Fin n → ℝ :=
  let m0 := fun _ _ : Fin n => 2 * b
  let m1 := fun i j => m0 i j - bs j
  let m2 := fun i j => m1 j i
  fun i j => m2 i j - bs j

/-- `d3b_dninjnks` (2822-2830): axes exchanged as in `transpose((2, 1, 0))` and `transpose((0, 2, 1))`. -/
def d3b (b : ℝ) (bs : Fin n → ℝ) : Fin n → Fin n → Fin n → ℝ :=
  let bs2 := fun i => 2 * bs i
  let m0 := fun _ _ _ : Fin n => -6 * b
  let m1 := fun i j k => m0 i j k + bs2 k
  let m2 := fun i j k => m1 k j i
  let m3 := fun i j k => m2 i j k + bs2 k
  let m4 := fun i j k => m3 i k j
  fun i j k => m4 i j k + bs2 k

/-- **C158.** The array and list forms of the second and third derivatives of the covolume agree. -/
theorem C158_covolume (b : ℝ) (bs : Fin n → ℝ) :
    d2b b bs = MixDerivs.d2bDninjs b bs ∧ d3b b bs = MixDerivs.d3bDninjnks b bs := by
  constructor
  · funext i j
    simp only [d2b, MixDerivs.d2bDninjs]
  · funext i j k
    simp only [d3b, MixDerivs.d3bDninjnks]
    ring

/-! ## Attraction of the mixture with arrays -/

/-- `a_alpha_and_derivatives_numpy` (1150-1187) from attractions, their derivatives and second derivatives. -/
noncomputable def attractionNp (zs : Fin n → ℝ) (kijs : Fin n → Fin n → ℝ) (a da d2a : Fin n → ℝ) : ℝ × ℝ × ℝ :=
  let x0 := fun i j => a i * a j
  let r := fun i j => √(x0 i j)
  let zz := fun i j => zs i * zs j
  let aij := fun i j => (1 - kijs i j) * r i j
  let term0 := fun i j => a j * da i
  let term7 := fun i j => (1 - kijs i j) / r i j
  let term1 := fun i j => -r i j / x0 i j * (1 - kijs i j)
  let term2 := fun i j => a i * da j
  let main3 := fun i j => da j / (2 * a j) * term2 i j
  let main4 := fun i j => -(a i * d2a j)
  let main6 := fun i j => -0.5 * (da i * da j)
  (∑ i, ∑ j, aij i j * zz j i, ∑ i, ∑ j, zz i j * term7 i j * term0 i j,
    ∑ i, ∑ j, zz i j * (term1 i j * (main3 i j + main4 i j + main6 i j)))

/-- The quadratic mixing rule. -/
noncomputable def quadratic (zs : Fin n → ℝ) (kijs : Fin n → Fin n → ℝ) (a : Fin n → ℝ) : ℝ :=
  ∑ i, ∑ j, zs i * zs j * (1 - kijs i j) * √(a i * a j)

/-- Exchange of the indices of a double sum. -/
theorem swap (f : Fin n → Fin n → ℝ) : ∑ i, ∑ j, f i j = ∑ i, ∑ j, f j i := Finset.sum_comm

theorem quadratic_deriv (zs : Fin n → ℝ) (kijs : Fin n → Fin n → ℝ) (hk : ∀ i j, kijs i j = kijs j i) (a da : Fin n → ℝ → ℝ) (T : ℝ)
    (ha : ∀ i, HasDerivAt (a i) (da i T) T) (hp : ∀ i, 0 < a i T) :
    HasDerivAt (fun t => quadratic zs kijs fun i => a i t)
      (∑ i, ∑ j, zs i * zs j * (1 - kijs i j) * (a j T * da i T) / √(a i T * a j T)) T := by
  have h1 : HasDerivAt (fun t => quadratic zs kijs fun i => a i t)
      (∑ i, ∑ j, zs i * zs j * (1 - kijs i j) * ((da i T * a j T + a i T * da j T) / (2 * √(a i T * a j T)))) T := by
    unfold quadratic
    refine HasDerivAt.fun_sum fun i _ => HasDerivAt.fun_sum fun j _ => ?_
    exact (((ha i).mul (ha j)).sqrt (mul_pos (hp i) (hp j)).ne').const_mul _
  refine h1.congr_deriv ?_
  have h2 : ∑ i, ∑ j, zs i * zs j * (1 - kijs i j) * (a i T * da j T) / √(a i T * a j T)
      = ∑ i, ∑ j, zs i * zs j * (1 - kijs i j) * (a j T * da i T) / √(a i T * a j T) := by
    rw [swap]
    refine Finset.sum_congr rfl fun i _ => Finset.sum_congr rfl fun j _ => ?_
    rw [hk j i, mul_comm (a j T) (a i T), mul_comm (zs j) (zs i)]
  have h3 : ∑ i, ∑ j, zs i * zs j * (1 - kijs i j) * ((da i T * a j T + a i T * da j T) / (2 * √(a i T * a j T)))
      = (∑ i, ∑ j, zs i * zs j * (1 - kijs i j) * (a j T * da i T) / √(a i T * a j T)
        + ∑ i, ∑ j, zs i * zs j * (1 - kijs i j) * (a i T * da j T) / √(a i T * a j T)) / 2 := by
    rw [← Finset.sum_add_distrib, Finset.sum_div]
    refine Finset.sum_congr rfl fun i _ => ?_
    rw [← Finset.sum_add_distrib, Finset.sum_div]
    refine Finset.sum_congr rfl fun j _ => ?_
    have := (Real.sqrt_pos.mpr (mul_pos (hp i) (hp j))).ne'
    field_simp
  rw [h3, h2]
  ring

/-- **C158.** With symmetric interaction parameters and positive attractions, the array form gives the quadratic mixing rule and its
first and second temperature derivatives. -/
theorem C158_attraction (zs : Fin n → ℝ) (kijs : Fin n → Fin n → ℝ) (hk : ∀ i j, kijs i j = kijs j i) (a da d2a : Fin n → ℝ → ℝ) (T : ℝ)
    (ha : ∀ i t, HasDerivAt (a i) (da i t) t) (hda : ∀ i, HasDerivAt (da i) (d2a i T) T) (hp : ∀ i t, 0 < a i t) :
    let r := fun t => attractionNp zs kijs (fun i => a i t) (fun i => da i t) fun i => d2a i t
    (∀ t, (r t).1 = quadratic zs kijs fun i => a i t) ∧ (∀ t, HasDerivAt (fun t => (r t).1) (r t).2.1 t)
      ∧ HasDerivAt (fun t => (r t).2.1) (r T).2.2 T := by
  intro r
  have e1 : ∀ t, (r t).1 = quadratic zs kijs fun i => a i t := by
    intro t
    simp only [r, attractionNp, quadratic]
    refine Finset.sum_congr rfl fun i _ => Finset.sum_congr rfl fun j _ => ?_
    ring
  have e2 : ∀ t, (r t).2.1 = ∑ i, ∑ j, zs i * zs j * (1 - kijs i j) * (a j t * da i t) / √(a i t * a j t) := by
    intro t
    simp only [r, attractionNp]
    refine Finset.sum_congr rfl fun i _ => Finset.sum_congr rfl fun j _ => ?_
    ring
  refine ⟨e1, fun t => ?_, ?_⟩
  · rw [funext e1, e2]
    exact quadratic_deriv zs kijs hk a da t (fun i => ha i t) fun i => hp i t
  · rw [funext e2]
    have hsq : ∀ i j, √(a i T * a j T) ^ 2 = a i T * a j T := fun i j => Real.sq_sqrt (mul_pos (hp i T) (hp j T)).le
    have hs : ∀ i j, √(a i T * a j T) ≠ 0 := fun i j => (Real.sqrt_pos.mpr (mul_pos (hp i T) (hp j T))).ne'
    have h1 : HasDerivAt (fun t => ∑ i, ∑ j, zs i * zs j * (1 - kijs i j) * (a j t * da i t) / √(a i t * a j t))
        (∑ i, ∑ j, zs i * zs j * (1 - kijs i j) / √(a i T * a j T)
          * (a j T * d2a i T + da j T * da i T / 2 - a j T * da i T ^ 2 / (2 * a i T))) T := by
      refine HasDerivAt.fun_sum fun i _ => HasDerivAt.fun_sum fun j _ => ?_
      have h2 := ((((ha j T).mul (hda i)).const_mul (zs i * zs j * (1 - kijs i j))).div
        (((ha i T).mul (ha j T)).sqrt (mul_pos (hp i T) (hp j T)).ne') (hs i j))
      refine h2.congr_deriv ?_
      have hi := (hp i T).ne'
      have hj := (hp j T).ne'
      have := hs i j
      have h3 := hsq i j
      simp only [Pi.mul_apply]
      rw [h3]
      generalize √(a i T * a j T) = s at this h3 ⊢
      field_simp
      rw [h3]
      ring
    refine h1.congr_deriv ?_
    simp only [r, attractionNp]
    rw [swap]
    refine Finset.sum_congr rfl fun i _ => Finset.sum_congr rfl fun j _ => ?_
    rw [hk j i, mul_comm (a j T) (a i T), mul_comm (zs j) (zs i)]
    have hi := (hp i T).ne'
    have hj := (hp j T).ne'
    have := hs i j
    have h3 := hsq i j
    generalize √(a i T * a j T) = s at this h3 ⊢
    have h4 : -s / (a i T * a j T) = -1 / s := by
      rw [← h3]
      field_simp
    rw [h4]
    field_simp
    ring

example : ∃ (kijs : Fin 2 → Fin 2 → ℝ) (a da d2a : Fin 2 → ℝ → ℝ), (∀ i j, kijs i j = kijs j i) ∧ (∀ i t, HasDerivAt (a i) (da i t) t)
    ∧ (∀ i, HasDerivAt (da i) (d2a i 0) 0) ∧ (∀ i t, 0 < a i t) :=
  ⟨fun i j => if i = j then 0 else 0.1, fun _ => Real.exp, fun _ => Real.exp, fun _ => Real.exp,
    fun i j => by simp [eq_comm], fun _ t => Real.hasDerivAt_exp t, fun _ => Real.hasDerivAt_exp 0, fun _ t => Real.exp_pos t⟩

/-- **C158 fails.** With interaction parameters that are not symmetric, the first derivative of the array form is wrong although its
value follows the mixing rule. -/
theorem C158_asymmetric_fails :
    ∃ (zs : Fin 2 → ℝ) (kijs : Fin 2 → Fin 2 → ℝ) (a da : Fin 2 → ℝ → ℝ), (∀ i t, HasDerivAt (a i) (da i t) t) ∧ (∀ i t, 0 < a i t)
      ∧ ¬ HasDerivAt (fun t => quadratic zs kijs fun i => a i t) (attractionNp zs kijs (fun i => a i 0) (fun i => da i 0) fun _ => 0).2.1 0 := by
  refine ⟨![1, 1], ![![1, 1], ![0, 1]], ![Real.exp, fun _ => 1], ![Real.exp, fun _ => 0], ?_, ?_, ?_⟩
  · intro i t
    fin_cases i
    · exact Real.hasDerivAt_exp t
    · exact hasDerivAt_const t 1
  · intro i t
    fin_cases i
    · exact Real.exp_pos t
    · exact one_pos
  · intro h
    have h1 : HasDerivAt (fun t : ℝ => √(Real.exp t)) (1 / 2) 0 := by
      have := (Real.hasDerivAt_exp 0).sqrt (Real.exp_pos 0).ne'
      simpa using this
    have e : (fun t => quadratic ![1, 1] ![![1, 1], ![0, 1]] fun i => (![Real.exp, fun _ => 1] : Fin 2 → ℝ → ℝ) i t)
        = fun t => √(Real.exp t) := by
      funext t
      simp [quadratic, Fin.sum_univ_two]
    rw [e] at h
    have h2 := h1.unique h
    simp [attractionNp, Fin.sum_univ_two] at h2

/-! ## Third derivative of the attraction of a mixture -/

/-- `PRMIX.d3a_alpha_dT3` (6983-7041): the mean of the third derivatives of the components. -/
noncomputable def thirdMix (zs ais Tcs kappas : Fin n → ℝ) (T : ℝ) : ℝ := ∑ i, zs i * Alpha.prThird (ais i) (Tcs i) (kappas i) T

/-- The attraction of the mixture as a function of temperature. -/
noncomputable def mixAttraction (zs : Fin n → ℝ) (kijs : Fin n → Fin n → ℝ) (ais Tcs kappas : Fin n → ℝ) (t : ℝ) : ℝ :=
  quadratic zs kijs fun i => Alpha.prPure (ais i) (Tcs i) (kappas i) t

/-- Components of the same attraction. -/
theorem same (zs : Fin n → ℝ) (kijs : Fin n → Fin n → ℝ) {a : ℝ} (ha : 0 ≤ a) (Tc kappa t : ℝ) :
    mixAttraction zs kijs (fun _ => a) (fun _ => Tc) (fun _ => kappa) t
      = (∑ i, ∑ j, zs i * zs j * (1 - kijs i j)) * Alpha.prPure a Tc kappa t := by
  have h : 0 ≤ Alpha.prPure a Tc kappa t := by
    have : Alpha.prPure a Tc kappa t = a * (1 + kappa * (1 - √(t / Tc))) ^ 2 := by
      simp only [Alpha.prPure]
      ring
    rw [this]
    positivity
  unfold mixAttraction quadratic
  simp only [Real.sqrt_mul_self h]
  rw [Finset.sum_mul]
  refine Finset.sum_congr rfl fun i _ => ?_
  rw [Finset.sum_mul]

theorem deriv3 {a Tc T : ℝ} (hTc : 0 < Tc) (hT : 0 < T) (kappa c : ℝ) :
    HasDerivAt (deriv (deriv fun t => c * Alpha.prPure a Tc kappa t)) (c * Alpha.prThird a Tc kappa T) T := by
  have e : deriv (deriv fun t => c * Alpha.prPure a Tc kappa t) = fun t => c * deriv (deriv fun t => Alpha.prPure a Tc kappa t) t := by
    have e1 : (deriv fun t => c * Alpha.prPure a Tc kappa t) = fun t => c * deriv (fun t => Alpha.prPure a Tc kappa t) t := by
      funext t
      exact deriv_const_mul_field c
    rw [e1]
    funext t
    exact deriv_const_mul_field c
  rw [e]
  exact (Alpha.C33_PR_third hTc hT kappa).const_mul c

/-- **C158, partial.** The third temperature derivative of the attraction is right for a mixture of equal components without
interaction, in particular for one component. Missing: all other mixtures. -/
theorem C158_third_partial (zs : Fin n → ℝ) (hz : ∑ i, zs i = 1) {a Tc T : ℝ} (ha : 0 ≤ a) (hTc : 0 < Tc) (hT : 0 < T) (kappa : ℝ) :
    HasDerivAt (deriv (deriv (mixAttraction zs (fun _ _ => 0) (fun _ => a) (fun _ => Tc) fun _ => kappa)))
      (thirdMix zs (fun _ => a) (fun _ => Tc) (fun _ => kappa) T) T := by
  have e : mixAttraction zs (fun _ _ => 0) (fun _ => a) (fun _ => Tc) (fun _ => kappa)
      = fun t => (1 : ℝ) * Alpha.prPure a Tc kappa t := by
    funext t
    rw [same zs _ ha]
    congr 1
    simp only [sub_zero, mul_one]
    rw [← Finset.sum_mul_sum, hz, one_mul]
  rw [e]
  refine (deriv3 hTc hT kappa 1).congr_deriv ?_
  unfold thirdMix
  rw [← Finset.sum_mul, hz]

example : HasDerivAt (deriv (deriv (mixAttraction ![0.4, 0.6] (fun _ _ => 0) (fun _ => 2) (fun _ => 300) fun _ => 0.5)))
    (thirdMix ![0.4, 0.6] (fun _ => 2) (fun _ => 300) (fun _ => 0.5) 250) 250 :=
  C158_third_partial _ (by norm_num [Fin.sum_univ_two]) (by norm_num) (by norm_num) (by norm_num) _

/-- **C158 fails.** The third derivative is that of a linear mixing rule: it ignores interaction parameters. -/
theorem C158_third_fails : ∃ (zs : Fin 2 → ℝ) (kijs : Fin 2 → Fin 2 → ℝ) (a Tc kappa T : ℝ), ∑ i, zs i = 1 ∧ (∀ i, 0 < zs i)
    ∧ (∀ i j, kijs i j = kijs j i) ∧ 0 < T
    ∧ ¬ HasDerivAt (deriv (deriv (mixAttraction zs kijs (fun _ => a) (fun _ => Tc) fun _ => kappa)))
        (thirdMix zs (fun _ => a) (fun _ => Tc) (fun _ => kappa) T) T := by
  refine ⟨![1/2, 1/2], ![![0, 1/2], ![1/2, 0]], 1, 1, 1, 1, ?_, ?_, ?_, one_pos, ?_⟩
  · norm_num [Fin.sum_univ_two]
  · intro i; fin_cases i <;> norm_num
  · intro i j; fin_cases i <;> fin_cases j <;> rfl
  · intro h
    have e : mixAttraction ![1/2, 1/2] ![![0, 1/2], ![1/2, 0]] (fun _ => (1 : ℝ)) (fun _ => 1) (fun _ => 1)
        = fun t => (3/4 : ℝ) * Alpha.prPure 1 1 1 t := by
      funext t
      rw [same _ _ zero_le_one]
      congr 1
      norm_num [Fin.sum_univ_two]
    rw [e] at h
    have h2 := (deriv3 (a := 1) one_pos one_pos 1 (3/4)).unique h
    norm_num [thirdMix, Alpha.prThird, Fin.sum_univ_two] at h2

end Verif.Containers
