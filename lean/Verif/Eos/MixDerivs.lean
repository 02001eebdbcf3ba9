import Verif.Util.Partial
import Mathlib.Analysis.Calculus.Deriv.Pow
import Mathlib.Tactic.LinearCombination
import Mathlib.Tactic.NormNum

/-!
# Composition derivatives of the equation of state parameters

`thermo/eos_mix_methods.py` 876-1278 and the properties of `GCEOSMIX` (`eos_mix.py` 2657-3104): first, second and
third derivatives of covolume, `δ`, `ε` and attraction, with respect to mole fractions (treated as independent)
and with respect to mole numbers at a total of one mole.

Lists are functions on `Fin N`; each loop writes every entry once, so the results are functions of the indices. The
`vectorized` (numpy) variants of the properties are not modelled.
-/

namespace Verif.MixDerivs

open Filter Topology

variable {N : ℕ}

/-! ### The code -/

/-- `eos_mix_db_dns` (876-881), `GCEOSMIX.db_dns` (2678-2699), `RKMIX.ddelta_dns` (6673-6691). -/
def dbDns (b : ℝ) (bs : Fin N → ℝ) (i : Fin N) : ℝ := bs i - b

/-- `GCEOSMIX.d2b_dninjs` (2745-2775), lists. -/
def d2bDninjs (b : ℝ) (bs : Fin N → ℝ) (i j : Fin N) : ℝ :=
  let bb := 2 * b
  bb - bs i - bs j

/-- `GCEOSMIX.d3b_dninjnks` (2801-2840), lists. -/
def d3bDninjnks (b : ℝ) (bs : Fin N → ℝ) (i j k : Fin N) : ℝ :=
  let n6b := -6 * b
  let bs2 := fun i => bs i + bs i
  let base := n6b + bs2 i + bs2 j
  base + bs2 k

/-- `eos_mix_da_alpha_dns` (883-889), `GCEOSMIX.da_alpha_dns` (2911-2934). -/
def daDns (a : ℝ) (rows : Fin N → ℝ) (i : Fin N) : ℝ :=
  let a_n_2 := -2 * a
  2 * rows i + a_n_2

/-- `GCEOSMIX.da_alpha_dzs` (2886-2908). -/
def daDzs (rows : Fin N → ℝ) (i : Fin N) : ℝ := rows i + rows i

/-- `GCEOSMIX.dna_alpha_dns` (2937-2960). -/
def dnaDns (a : ℝ) (rows : Fin N → ℝ) (i : Fin N) : ℝ := rows i + rows i - a

/-- `GCEOSMIX.d2a_alpha_dzizjs` (2963-2983). -/
def d2aDzizjs (A : Fin N → Fin N → ℝ) (i j : Fin N) : ℝ := A i j + A i j

/-- One entry of the lower triangle in `GCEOSMIX.d2a_alpha_dninjs` (3029-3036). -/
def hessTerm (a : ℝ) (A : Fin N → Fin N → ℝ) (rows zs : Fin N → ℝ) (i j : Fin N) : ℝ :=
  let a3 := 3 * a
  let term := if i = j then 2 * rows i else ∑ k, zs k * (A i k + A j k)
  2 * (a3 + A i j - 2 * term)

/-- `GCEOSMIX.d2a_alpha_dninjs` (2986-3039): each pair is computed once and written to both places. -/
def d2aDninjs (a : ℝ) (A : Fin N → Fin N → ℝ) (rows zs : Fin N → ℝ) (i j : Fin N) : ℝ :=
  if j ≤ i then hessTerm a A rows zs i j else hessTerm a A rows zs j i

/-- `GCEOSMIX.d3a_alpha_dninjnks` (3065-3104). -/
def d3aDninjnks (a : ℝ) (A : Fin N → Fin N → ℝ) (zs : Fin N → ℝ) (i j k : Fin N) : ℝ :=
  let a6 := -6 * a
  let mid := A i j + A i k + A j k
  let last := ∑ m, zs m * (A i m + A j m + A k m)
  4 * (a6 - mid + 3 * last)

/-- `RK_d3delta_dninjnks` (891-905). -/
def rkD3delta (b : ℝ) (bs : Fin N → ℝ) (i j k : Fin N) : ℝ :=
  let m6b := -6 * b
  let x0 := m6b + 2 * (bs i + bs j)
  x0 + 2 * bs k

/-- `PR_ddelta_dzs` (907-912). -/
def prDdeltaDzs (bs : Fin N → ℝ) (i : Fin N) : ℝ := 2 * bs i

/-- `PR_ddelta_dns` (914-920). -/
def prDdeltaDns (bs : Fin N → ℝ) (b : ℝ) (i : Fin N) : ℝ :=
  let nb2 := -2 * b
  2 * bs i + nb2

/-- `PR_depsilon_dns` (922-929). -/
def prDepsDns (b : ℝ) (bs : Fin N → ℝ) (i : Fin N) : ℝ :=
  let b2 := b + b
  let b2b := b2 * b
  b2b - b2 * bs i

/-- `PR_d2delta_dninjs` (931-942). -/
def prD2delta (b : ℝ) (bs : Fin N → ℝ) (i j : Fin N) : ℝ :=
  let bb := 2 * b
  let x0 := 2 * (bb - bs i)
  x0 - 2 * bs j

/-- `PR_d3delta_dninjnks` (944-958). -/
def prD3delta (b : ℝ) (bs : Fin N → ℝ) (i j k : Fin N) : ℝ :=
  let m3b := -3 * b
  let x0 := 4 * (m3b + bs i + bs j)
  x0 + 4 * bs k

/-- `PR_d2epsilon_dzizjs` (961-971). -/
def prD2epsDz (bs : Fin N → ℝ) (i j : Fin N) : ℝ :=
  let x0 := -2 * bs i
  x0 * bs j

/-- `PR_depsilon_dzs` (973-980). -/
def prDepsDzs (b : ℝ) (bs : Fin N → ℝ) (i : Fin N) : ℝ :=
  let b2n := -2 * b
  b2n * bs i

/-- `PR_d2epsilon_dninjs` (984-1001). -/
noncomputable def prD2eps (b : ℝ) (bs : Fin N → ℝ) (i j : Fin N) : ℝ :=
  let bb := b + b
  let b2 := b * b
  let c0 := (-bb) * bb - 2 * b2
  let c1 := 2 * (b + 0.5 * bb)
  let c2 := 2 * b + bb
  let x0 := c0 + c1 * bs i
  let x1 := c2 - 2 * bs i
  x0 + bs j * x1

/-- `PR_d3epsilon_dninjnks` (1004-1026). -/
def prD3eps (b : ℝ) (bs : Fin N → ℝ) (i j k : Fin N) : ℝ :=
  let c0 := 24 * b * b
  let bi := bs i
  let c10 := -12 * b + 4 * bi
  let c11 := c0 - 12 * b * bi
  let c12 := -12 * b + 4 * bi
  let bj := bs j
  let x0 := c11 + bj * c12
  let x1 := c10 + 4 * bj
  x0 + bs k * x1

/-- `PR_translated_ddelta_dzs` (1030-1035). -/
def prtDdeltaDzs (b0s cs : Fin N → ℝ) (i : Fin N) : ℝ := 2 * (cs i + b0s i)

/-- `PR_translated_d2epsilon_dzizjs` (1037-1048); row `j`, column `i`. -/
def prtD2epsDz (b0s cs : Fin N → ℝ) (j i : Fin N) : ℝ :=
  let x1 := 2 * b0s j
  let x2 := 2 * cs j
  x1 * (cs i - b0s i) + x2 * (b0s i + cs i)

/-- `PR_translated_d2epsilon_dninjs` (1050-1070). -/
def prtD2eps (b0s cs : Fin N → ℝ) (b c : ℝ) (i j : Fin N) : ℝ :=
  let b0 := b + c
  let v0 := -6 * b0 * b0 + 12 * b0 * c + 6 * c * c
  let v1 := 4 * b0 - 4 * c
  let v2 := -4 * b0 - 4 * c
  let b0i := b0s i
  let ci := cs i
  let x0 := v0 + b0i * v1 + ci * v2
  let x1 := v1 - 2 * b0i + 2 * ci
  let x2 := v2 + 2 * b0i + 2 * ci
  x0 + b0s j * x1 + cs j * x2

/-- `PR_translated_ddelta_dns` (1072-1077). -/
def prtDdeltaDns (b0s cs : Fin N → ℝ) (delta : ℝ) (i : Fin N) : ℝ := 2 * (cs i + b0s i) - delta

/-- `SRK_translated_ddelta_dns` (1079-1084). -/
def srktDdeltaDns (b0s cs : Fin N → ℝ) (delta : ℝ) (i : Fin N) : ℝ := 2 * cs i + b0s i - delta

/-- `SRKMIXTranslated.ddelta_dzs` (eos_mix.py 9116-9135). -/
def srktDdeltaDzs (b0s cs : Fin N → ℝ) (i : Fin N) : ℝ := 2 * cs i + b0s i

/-- `SRK_translated_depsilon_dns` (1087-1095). -/
def srktDepsDns (b c : ℝ) (b0s cs : Fin N → ℝ) (i : Fin N) : ℝ :=
  let b0 := b + c
  let x0 := -2 * b0 * c - 2 * c * c
  let x1 := b0 + 2 * c
  x0 + b0s i * c + cs i * x1

/-- `SRK_translated_depsilon_dzs` (1097-1104). -/
def srktDepsDzs (b0s cs : Fin N → ℝ) (b c : ℝ) (i : Fin N) : ℝ :=
  let b0 := b + c
  let x0 := b0 + 2 * c
  b0s i * c + cs i * x0

/-- `SRK_translated_d2epsilon_dzizjs` (1106-1118). -/
def srktD2epsDz (b0s cs : Fin N → ℝ) (i j : Fin N) : ℝ :=
  let x0 := 2 * cs i
  let b0i := b0s i
  let c0i := cs i
  cs j * (x0 + b0i) + b0s j * c0i

/-- `SRK_translated_d2delta_dninjs` (1121-1134). -/
def srktD2delta (b0s cs : Fin N → ℝ) (b c : ℝ) (i j : Fin N) : ℝ :=
  let b0 := b + c
  let c_4 := 4 * c
  let x0 := 2 * (b0 - cs i) + c_4 - b0s i
  x0 - b0s j - 2 * cs j

/-- `SRK_translated_d3delta_dninjnks` (1136-1149). -/
def srktD3delta (b0s cs : Fin N → ℝ) (b c : ℝ) (i j k : Fin N) : ℝ :=
  let b0 := b + c
  (-6) * b0 + 2 * (b0s i + b0s j + b0s k) - 12 * c + 4 * (cs i + cs j + cs k)

/-- `SRK_translated_d2epsilon_dninjs` (1151-1166). -/
def srktD2eps (b0s cs : Fin N → ℝ) (b c : ℝ) (i j : Fin N) : ℝ :=
  let b0 := b + c
  b0 * (2 * c - cs i - cs j) + c * (2 * b0 - b0s i - b0s j)
    + 2 * c * (2 * c - cs i - cs j)
    + (b0 - b0s i) * (c - cs j)
    + (b0 - b0s j) * (c - cs i)
    + 2 * (c - cs i) * (c - cs j)

/-- `SRK_translated_d3epsilon_dninjnks` (1168-1193). -/
def srktD3eps (b0s cs : Fin N → ℝ) (b c : ℝ) (i j k : Fin N) : ℝ :=
  let b0 := b + c
  (-2) * b0 * (3 * c - cs i - cs j - cs k)
    - 2 * c * (3 * b0 - b0s i - b0s j - b0s k)
    - 4 * c * (3 * c - cs i - cs j - cs k)
    - (b0 - b0s i) * (2 * c - cs j - cs k)
    - (b0 - b0s j) * (2 * c - cs i - cs k)
    - (b0 - b0s k) * (2 * c - cs i - cs j)
    - (c - cs i) * (2 * b0 - b0s j - b0s k)
    - (c - cs j) * (2 * b0 - b0s i - b0s k)
    - (c - cs k) * (2 * b0 - b0s i - b0s j)
    - 2 * (c - cs i) * (2 * c - cs j - cs k)
    - 2 * (c - cs j) * (2 * c - cs i - cs k)
    - 2 * (c - cs k) * (2 * c - cs i - cs j)

/-- `PR_translated_depsilon_dzs` (1195-1204). -/
def prtDepsDzs (c b : ℝ) (b0s cs : Fin N → ℝ) (i : Fin N) : ℝ :=
  let b0 := b + c
  let b0_2 := b0 * 2
  let x0 := b0_2 + 2 * c
  let x1 := c * 2 - b0_2
  cs i * x0 + x1 * b0s i

/-- `PR_translated_depsilon_dns` (1206-1215). -/
def prtDepsDns (b c : ℝ) (b0s cs : Fin N → ℝ) (i : Fin N) : ℝ :=
  let b0 := b + c
  let x0 := 2 * b0 * b0 - 4 * b0 * c - 2 * c * c
  let x1 := -2 * b0 + 2 * c
  let x2 := 2 * b0 + 2 * c
  x0 + b0s i * x1 + cs i * x2

/-- `PR_translated_d2delta_dninjs` (1217-1228). -/
def prtD2delta (b0s cs : Fin N → ℝ) (delta : ℝ) (i j : Fin N) : ℝ :=
  let t := delta - b0s i - cs i
  2 * (t - b0s j - cs j)

/-- `PR_translated_d3delta_dninjnks` (1230-1245). -/
def prtD3delta (b0s cs : Fin N → ℝ) (delta : ℝ) (i j k : Fin N) : ℝ :=
  let delta_six := 6 * delta
  let b0ici := b0s i + cs i
  let b0jcj := b0s j + cs j
  let v0 := 4 * (b0ici + b0jcj) - delta_six
  v0 + 4 * (b0s k + cs k)

/-- `PR_translated_d3epsilon_dninjnks` (1248-1278). -/
def prtD3eps (b0s cs : Fin N → ℝ) (b c : ℝ) (i j k : Fin N) : ℝ :=
  let b0 := b + c
  4 * b0 * (3 * b0 - b0s i - b0s j - b0s k)
    - 2 * c * (6 * b0 + 3 * c - 2 * (b0s i + b0s j + b0s k) - (cs i + cs j + cs k))
    + 2 * (b0 - b0s i) * (2 * b0 - b0s j - b0s k)
    + 2 * (b0 - b0s j) * (2 * b0 - b0s i - b0s k)
    + 2 * (b0 - b0s k) * (2 * b0 - b0s i - b0s j)
    - (c - cs i) * (4 * b0 - 2 * b0s j - 2 * b0s k + 2 * c - cs j - cs k)
    - (c - cs j) * (4 * b0 - 2 * b0s i - 2 * b0s k + 2 * c - cs i - cs k)
    - (c - cs k) * (4 * b0 - 2 * b0s i - 2 * b0s j + 2 * c - cs i - cs j)
    - 2 * (c + 2 * b0) * (3 * c - cs i - cs j - cs k)
    - (2 * c - cs i - cs j) * (2 * b0 + c - 2 * b0s k - cs k)
    - (2 * c - cs i - cs k) * (2 * b0 + c - 2 * b0s j - cs j)
    - (2 * c - cs j - cs k) * (2 * b0 + c - 2 * b0s i - cs i)

/-! ### Specification -/

/-- Second partial derivative. -/
def PD2 (F : (Fin N → ℝ) → ℝ) (i j : Fin N) (x : Fin N → ℝ) (d : ℝ) : Prop :=
  ∃ g : (Fin N → ℝ) → ℝ, (∀ᶠ y in 𝓝 x, PD F i y (g y)) ∧ PD g j x d

/-- Third partial derivative. -/
def PD3 (F : (Fin N → ℝ) → ℝ) (i j k : Fin N) (x : Fin N → ℝ) (d : ℝ) : Prop :=
  ∃ g : (Fin N → ℝ) → ℝ, (∀ᶠ y in 𝓝 x, PD2 F i j y (g y)) ∧ PD g k x d

/-- A mole fraction average of the mole numbers `n`. -/
noncomputable def lin (l n : Fin N → ℝ) : ℝ := (∑ i, n i * l i) / ∑ i, n i

/-- A quadratic mole fraction average. -/
noncomputable def quad (A : Fin N → Fin N → ℝ) (n : Fin N → ℝ) : ℝ :=
  (∑ i, ∑ j, n i * n j * A i j) / (∑ i, n i) ^ 2

/-- The same with mole fractions as independent variables. -/
def linz (l z : Fin N → ℝ) : ℝ := ∑ i, z i * l i

/-- The same with mole fractions as independent variables. -/
def quadz (A : Fin N → Fin N → ℝ) (z : Fin N → ℝ) : ℝ := ∑ i, ∑ j, z i * z j * A i j

/-- `Σ_j z_j a_ij`. -/
def rowsA (A : Fin N → Fin N → ℝ) (n : Fin N → ℝ) (i : Fin N) : ℝ := ∑ j, n j * A i j

/-- `ε` of the Peng-Robinson equation as a function of the covolume. -/
def prEps (b : ℝ) : ℝ := -b ^ 2

/-- `ε` of the translated Peng-Robinson equation (`(V + c)² + 2 b₀ (V + c) - b₀²`). -/
def prtEps (b0 c : ℝ) : ℝ := c ^ 2 + 2 * b0 * c - b0 ^ 2

/-- `ε` of the translated Soave-Redlich-Kwong equation (`(V + c)(V + c + b₀)`). -/
def srktEps (b0 c : ℝ) : ℝ := c * (c + b0)

/-! ### Jets -/

/-- `F` with all its partial derivatives to order three on a set. -/
structure Jet (U : Set (Fin N → ℝ)) (F : (Fin N → ℝ) → ℝ) (F1 : Fin N → (Fin N → ℝ) → ℝ)
    (F2 : Fin N → Fin N → (Fin N → ℝ) → ℝ) (F3 : Fin N → Fin N → Fin N → (Fin N → ℝ) → ℝ) : Prop where
  d1 : ∀ n ∈ U, ∀ i, PD F i n (F1 i n)
  d2 : ∀ n ∈ U, ∀ i j, PD (F1 i) j n (F2 i j n)
  d3 : ∀ n ∈ U, ∀ i j k, PD (F2 i j) k n (F3 i j k n)

namespace Jet

variable {U : Set (Fin N → ℝ)} {F G : (Fin N → ℝ) → ℝ} {F1 G1 : Fin N → (Fin N → ℝ) → ℝ}
  {F2 G2 : Fin N → Fin N → (Fin N → ℝ) → ℝ} {F3 G3 : Fin N → Fin N → Fin N → (Fin N → ℝ) → ℝ}

theorem pd2 (h : Jet U F F1 F2 F3) (hU : IsOpen U) {x : Fin N → ℝ} (hx : x ∈ U) (i j : Fin N) :
    PD2 F i j x (F2 i j x) :=
  ⟨F1 i, (hU.eventually_mem hx).mono fun y hy => h.d1 y hy i, h.d2 x hx i j⟩

theorem pd3 (h : Jet U F F1 F2 F3) (hU : IsOpen U) {x : Fin N → ℝ} (hx : x ∈ U) (i j k : Fin N) :
    PD3 F i j k x (F3 i j k x) :=
  ⟨F2 i j, (hU.eventually_mem hx).mono fun _ hy => h.pd2 hU hy i j, h.d3 x hx i j k⟩

theorem add (h : Jet U F F1 F2 F3) (g : Jet U G G1 G2 G3) :
    Jet U (fun n => F n + G n) (fun i n => F1 i n + G1 i n) (fun i j n => F2 i j n + G2 i j n)
      (fun i j k n => F3 i j k n + G3 i j k n) :=
  ⟨fun n hn i => (h.d1 n hn i).add (g.d1 n hn i), fun n hn i j => (h.d2 n hn i j).add (g.d2 n hn i j),
    fun n hn i j k => (h.d3 n hn i j k).add (g.d3 n hn i j k)⟩

theorem smul (c : ℝ) (h : Jet U F F1 F2 F3) :
    Jet U (fun n => c * F n) (fun i n => c * F1 i n) (fun i j n => c * F2 i j n)
      (fun i j k n => c * F3 i j k n) :=
  ⟨fun n hn i => (h.d1 n hn i).const_mul c, fun n hn i j => (h.d2 n hn i j).const_mul c,
    fun n hn i j k => (h.d3 n hn i j k).const_mul c⟩

theorem mul (h : Jet U F F1 F2 F3) (g : Jet U G G1 G2 G3) :
    Jet U (fun n => F n * G n) (fun i n => F1 i n * G n + F n * G1 i n)
      (fun i j n => F2 i j n * G n + F1 i n * G1 j n + (F1 j n * G1 i n + F n * G2 i j n))
      (fun i j k n => F3 i j k n * G n + F2 i j n * G1 k n + (F2 i k n * G1 j n + F1 i n * G2 j k n) +
        (F2 j k n * G1 i n + F1 j n * G2 i k n + (F1 k n * G2 i j n + F n * G3 i j k n))) := by
  refine ⟨fun n hn i => (h.d1 n hn i).mul (g.d1 n hn i), fun n hn i j => ?_, fun n hn i j k => ?_⟩
  · exact ((h.d2 n hn i j).mul (g.d1 n hn j)).add ((h.d1 n hn j).mul (g.d2 n hn i j))
  · exact (((h.d3 n hn i j k).mul (g.d1 n hn k)).add ((h.d2 n hn i k).mul (g.d2 n hn j k))).add
      (((h.d2 n hn j k).mul (g.d2 n hn i k)).add ((h.d1 n hn k).mul (g.d3 n hn i j k)))

end Jet

/-- Mole numbers with a nonzero total. -/
def Amounts (N : ℕ) : Set (Fin N → ℝ) := {n | ∑ i, n i ≠ 0}

theorem amounts_open : IsOpen (Amounts N) := by
  have : Continuous fun n : Fin N → ℝ => ∑ i, n i := by fun_prop
  exact isOpen_ne.preimage this

theorem pd_total (z : Fin N → ℝ) (i : Fin N) : PD (fun n => ∑ k, n k) i z 1 := by
  have := PD.linear (fun _ => (1 : ℝ)) i z
  simpa using this

/-- Averages over mole numbers. -/
theorem lin_jet (l : Fin N → ℝ) : Jet (Amounts N) (lin l) (fun i n => (l i - lin l n) / ∑ m, n m)
    (fun i j n => (2 * lin l n - l i - l j) / (∑ m, n m) ^ 2)
    (fun i j k n => (-6 * lin l n + 2 * (l i + l j + l k)) / (∑ m, n m) ^ 3) := by
  have h1 : ∀ n ∈ Amounts N, ∀ i, PD (lin l) i n ((l i - lin l n) / ∑ m, n m) := by
    intro n hn i
    have hn' : ∑ m, n m ≠ 0 := hn
    refine ((PD.linear l i n).div (pd_total n i) hn').congr_d ?_
    unfold lin
    field_simp
  refine ⟨h1, fun n hn i j => ?_, fun n hn i j k => ?_⟩
  · have hn' : ∑ m, n m ≠ 0 := hn
    refine (((PD.const (l i)).sub (h1 n hn j)).div (pd_total n j) hn').congr_d ?_
    field_simp
    ring
  · have hn' : ∑ m, n m ≠ 0 := hn
    have hs : PD (fun n => (∑ m, n m) ^ 2) k n (2 * ∑ m, n m) := by
      have := (pd_total n k).mul (pd_total n k)
      simp only [← pow_two] at this
      refine this.congr_d (by ring)
    refine (((((h1 n hn k).const_mul 2).sub (PD.const (l i))).sub (PD.const (l j))).div hs
      (pow_ne_zero 2 hn')).congr_d ?_
    field_simp
    ring

/-- Averages with independent mole fractions. -/
theorem linz_jet (l : Fin N → ℝ) : Jet Set.univ (linz l) (fun i _ => l i) (fun _ _ _ => 0) (fun _ _ _ _ => 0) :=
  ⟨fun n _ i => PD.linear l i n, fun _ _ _ _ => PD.const _, fun _ _ _ _ _ => PD.const _⟩

theorem pd_rows (A : Fin N → Fin N → ℝ) (n : Fin N → ℝ) (i j : Fin N) : PD (fun n => rowsA A n i) j n (A i j) :=
  PD.linear (A i) j n

theorem quadz_rows (A : Fin N → Fin N → ℝ) (n : Fin N → ℝ) : quadz A n = ∑ i, n i * rowsA A n i := by
  unfold quadz rowsA
  refine Finset.sum_congr rfl fun i _ => ?_
  rw [Finset.mul_sum]
  exact Finset.sum_congr rfl fun j _ => by ring

theorem quadz_jet {A : Fin N → Fin N → ℝ} (hA : ∀ i j, A i j = A j i) (U : Set (Fin N → ℝ)) :
    Jet U (quadz A) (fun i n => 2 * rowsA A n i) (fun i j _ => 2 * A i j) (fun _ _ _ _ => 0) := by
  refine ⟨fun n _ i => ?_, fun n _ i j => (pd_rows A n i j).const_mul 2, fun _ _ _ _ _ => PD.const _⟩
  have h : quadz A = fun n => ∑ k, n k * rowsA A n k := funext (quadz_rows A)
  rw [h]
  refine (PD.sum fun k _ => (PD.coord k i n).mul (pd_rows A n k i)).congr_d ?_
  simp only [ite_mul, one_mul, zero_mul, Finset.sum_add_distrib, Finset.sum_ite_eq', Finset.mem_univ, if_true]
  have : ∑ k, n k * A k i = rowsA A n i := Finset.sum_congr rfl fun k _ => by rw [hA]
  rw [this]; ring

theorem invsq_jet : Jet (Amounts N) (fun n => 1 / (∑ m, n m) ^ 2) (fun _ n => -2 / (∑ m, n m) ^ 3)
    (fun _ _ n => 6 / (∑ m, n m) ^ 4) (fun _ _ _ n => -24 / (∑ m, n m) ^ 5) := by
  have hp : ∀ (p : ℕ) (n : Fin N → ℝ) (i : Fin N), PD (fun n => (∑ m, n m) ^ p) i n (p * (∑ m, n m) ^ (p - 1)) := by
    intro p n i
    have := PD.comp (f := fun s => s ^ p) (hasDerivAt_pow p (∑ m, n m)) (pd_total n i)
    simpa using this
  refine ⟨fun n hn i => ?_, fun n hn i j => ?_, fun n hn i j k => ?_⟩ <;> have hn' : ∑ m, n m ≠ 0 := hn
  · refine ((PD.const 1).div (hp 2 n i) (pow_ne_zero 2 hn')).congr_d ?_
    norm_num; field_simp
  · refine ((PD.const (-2)).div (hp 3 n j) (pow_ne_zero 3 hn')).congr_d ?_
    norm_num; field_simp; norm_num
  · refine ((PD.const 6).div (hp 4 n k) (pow_ne_zero 4 hn')).congr_d ?_
    norm_num; field_simp; norm_num

theorem quad_eq (A : Fin N → Fin N → ℝ) : quad A = fun n => quadz A n * (1 / (∑ m, n m) ^ 2) := by
  funext n; unfold quad quadz; ring

/-! ### Theorems -/

section Theorems

variable {z : Fin N → ℝ}

theorem mem_amounts (hz : ∑ i, z i = 1) : z ∈ Amounts N := by
  show ∑ i, z i ≠ 0
  rw [hz]; exact one_ne_zero

/-- **C41.** Covolume: derivatives with respect to mole numbers, also the `δ` derivatives of the Redlich-Kwong family. -/
theorem C41_covolume (hz : ∑ i, z i = 1) (bs : Fin N → ℝ) :
    (∀ i, PD (lin bs) i z (dbDns (lin bs z) bs i)) ∧
    (∀ i j, PD2 (lin bs) i j z (d2bDninjs (lin bs z) bs i j)) ∧
    (∀ i j k, PD3 (lin bs) i j k z (d3bDninjnks (lin bs z) bs i j k)) ∧
    (∀ i j k, PD3 (lin bs) i j k z (rkD3delta (lin bs z) bs i j k)) := by
  have h := lin_jet bs
  have hm := mem_amounts hz
  refine ⟨fun i => (h.d1 z hm i).congr_d ?_, fun i j => ?_, fun i j k => ?_, fun i j k => ?_⟩
  · rw [hz, div_one]; rfl
  · convert h.pd2 amounts_open hm i j using 1
    rw [hz]; simp only [d2bDninjs]; ring
  · convert h.pd3 amounts_open hm i j k using 1
    rw [hz]; simp only [d3bDninjnks]; ring
  · convert h.pd3 amounts_open hm i j k using 1
    rw [hz]; simp only [rkD3delta]; ring

/-- **C41.** The `δ` derivatives of the Peng-Robinson equation (`δ = 2 b`). -/
theorem C41_PR_delta (hz : ∑ i, z i = 1) (bs : Fin N → ℝ) :
    (∀ i, PD (fun n => 2 * linz bs n) i z (prDdeltaDzs bs i)) ∧
    (∀ i, PD (fun n => 2 * lin bs n) i z (prDdeltaDns bs (lin bs z) i)) ∧
    (∀ i j, PD2 (fun n => 2 * lin bs n) i j z (prD2delta (lin bs z) bs i j)) ∧
    (∀ i j k, PD3 (fun n => 2 * lin bs n) i j k z (prD3delta (lin bs z) bs i j k)) := by
  have h := (lin_jet bs).smul 2
  have hm := mem_amounts hz
  refine ⟨fun i => (((linz_jet bs).smul 2).d1 z trivial i).congr_d rfl, fun i => (h.d1 z hm i).congr_d ?_,
    fun i j => ?_, fun i j k => ?_⟩
  · simp only [hz, prDdeltaDns]; ring
  · convert h.pd2 amounts_open hm i j using 1
    simp only [hz, prD2delta]; ring
  · convert h.pd3 amounts_open hm i j k using 1
    simp only [hz, prD3delta]; ring

/-- **C41.** The `ε` derivatives of the Peng-Robinson equation (`ε = -b²`). -/
theorem C41_PR_epsilon (hz : ∑ i, z i = 1) (bs : Fin N → ℝ) :
    (∀ i, PD (fun n => prEps (linz bs n)) i z (prDepsDzs (lin bs z) bs i)) ∧
    (∀ i j, PD2 (fun n => prEps (linz bs n)) i j z (prD2epsDz bs i j)) ∧
    (∀ i j k, PD3 (fun n => prEps (linz bs n)) i j k z 0) ∧
    (∀ i, PD (fun n => prEps (lin bs n)) i z (prDepsDns (lin bs z) bs i)) ∧
    (∀ i j, PD2 (fun n => prEps (lin bs n)) i j z (prD2eps (lin bs z) bs i j)) ∧
    (∀ i j k, PD3 (fun n => prEps (lin bs n)) i j k z (prD3eps (lin bs z) bs i j k)) := by
  have e1 : (fun n : Fin N → ℝ => prEps (linz bs n)) = fun n => (-1) * (linz bs n * linz bs n) := by
    funext n; unfold prEps; ring
  have e2 : (fun n : Fin N → ℝ => prEps (lin bs n)) = fun n => (-1) * (lin bs n * lin bs n) := by
    funext n; unfold prEps; ring
  have hl : linz bs z = lin bs z := by unfold linz lin; rw [hz, div_one]
  rw [e1, e2]
  have h := ((lin_jet bs).mul (lin_jet bs)).smul (-1)
  have g := ((linz_jet bs).mul (linz_jet bs)).smul (-1)
  have hm := mem_amounts hz
  refine ⟨fun i => (g.d1 z trivial i).congr_d ?_, fun i j => ?_, fun i j k => ?_, fun i => (h.d1 z hm i).congr_d ?_,
    fun i j => ?_, fun i j k => ?_⟩
  · simp only [hl, prDepsDzs]; ring
  · convert g.pd2 isOpen_univ trivial i j using 1
    simp only [prD2epsDz]; ring
  · convert g.pd3 isOpen_univ trivial i j k using 1
    simp
  · simp only [hz, prDepsDns]; ring
  · convert h.pd2 amounts_open hm i j using 1
    simp only [hz, prD2eps]; ring
  · convert h.pd3 amounts_open hm i j k using 1
    simp only [hz, prD3eps]; ring

/-- **C41.** The `δ` derivatives of the translated equations; the routines receive the translated covolume
`b = b₀ - c`, the mean translation `c` and `δ`. -/
theorem C41_translated_delta (hz : ∑ i, z i = 1) (b0s cs : Fin N → ℝ) :
    (∀ i, PD (fun n => 2 * (linz cs n + linz b0s n)) i z (prtDdeltaDzs b0s cs i)) ∧
    (∀ i, PD (fun n => 2 * (lin cs n + lin b0s n)) i z (prtDdeltaDns b0s cs (2 * (lin cs z + lin b0s z)) i)) ∧
    (∀ i j, PD2 (fun n => 2 * (lin cs n + lin b0s n)) i j z (prtD2delta b0s cs (2 * (lin cs z + lin b0s z)) i j)) ∧
    (∀ i j k, PD3 (fun n => 2 * (lin cs n + lin b0s n)) i j k z
      (prtD3delta b0s cs (2 * (lin cs z + lin b0s z)) i j k)) ∧
    (∀ i, PD (fun n => 2 * linz cs n + linz b0s n) i z (srktDdeltaDzs b0s cs i)) ∧
    (∀ i, PD (fun n => 2 * lin cs n + lin b0s n) i z (srktDdeltaDns b0s cs (2 * lin cs z + lin b0s z) i)) ∧
    (∀ i j, PD2 (fun n => 2 * lin cs n + lin b0s n) i j z
      (srktD2delta b0s cs (lin b0s z - lin cs z) (lin cs z) i j)) ∧
    (∀ i j k, PD3 (fun n => 2 * lin cs n + lin b0s n) i j k z
      (srktD3delta b0s cs (lin b0s z - lin cs z) (lin cs z) i j k)) := by
  have hm := mem_amounts hz
  have h1 := ((lin_jet cs).add (lin_jet b0s)).smul 2
  have h2 := ((lin_jet cs).smul 2).add (lin_jet b0s)
  refine ⟨fun i => ((((linz_jet cs).add (linz_jet b0s)).smul 2).d1 z trivial i).congr_d rfl,
    fun i => (h1.d1 z hm i).congr_d ?_, fun i j => ?_, fun i j k => ?_,
    fun i => ((((linz_jet cs).smul 2).add (linz_jet b0s)).d1 z trivial i).congr_d rfl,
    fun i => (h2.d1 z hm i).congr_d ?_, fun i j => ?_, fun i j k => ?_⟩
  · simp only [hz, prtDdeltaDns]; ring
  · convert h1.pd2 amounts_open hm i j using 1
    simp only [hz, prtD2delta]; ring
  · convert h1.pd3 amounts_open hm i j k using 1
    simp only [hz, prtD3delta]; ring
  · simp only [hz, srktDdeltaDns]; ring
  · convert h2.pd2 amounts_open hm i j using 1
    simp only [hz, srktD2delta]; ring
  · convert h2.pd3 amounts_open hm i j k using 1
    simp only [hz, srktD3delta]; ring

/-- **C41.** The `ε` derivatives of the translated Peng-Robinson equation. -/
theorem C41_PR_translated_epsilon (hz : ∑ i, z i = 1) (b0s cs : Fin N → ℝ) :
    (∀ i, PD (fun n => prtEps (linz b0s n) (linz cs n)) i z
      (prtDepsDzs (lin cs z) (lin b0s z - lin cs z) b0s cs i)) ∧
    (∀ i j, PD2 (fun n => prtEps (linz b0s n) (linz cs n)) i j z (prtD2epsDz b0s cs i j)) ∧
    (∀ i j k, PD3 (fun n => prtEps (linz b0s n) (linz cs n)) i j k z 0) ∧
    (∀ i, PD (fun n => prtEps (lin b0s n) (lin cs n)) i z
      (prtDepsDns (lin b0s z - lin cs z) (lin cs z) b0s cs i)) ∧
    (∀ i j, PD2 (fun n => prtEps (lin b0s n) (lin cs n)) i j z
      (prtD2eps b0s cs (lin b0s z - lin cs z) (lin cs z) i j)) ∧
    (∀ i j k, PD3 (fun n => prtEps (lin b0s n) (lin cs n)) i j k z
      (prtD3eps b0s cs (lin b0s z - lin cs z) (lin cs z) i j k)) := by
  have e1 : (fun n : Fin N → ℝ => prtEps (linz b0s n) (linz cs n)) =
      fun n => linz cs n * linz cs n + 2 * (linz b0s n * linz cs n) + (-1) * (linz b0s n * linz b0s n) := by
    funext n; unfold prtEps; ring
  have e2 : (fun n : Fin N → ℝ => prtEps (lin b0s n) (lin cs n)) =
      fun n => lin cs n * lin cs n + 2 * (lin b0s n * lin cs n) + (-1) * (lin b0s n * lin b0s n) := by
    funext n; unfold prtEps; ring
  have hl : ∀ l : Fin N → ℝ, linz l z = lin l z := by intro l; unfold linz lin; rw [hz, div_one]
  rw [e1, e2]
  have hb := lin_jet b0s
  have hc := lin_jet cs
  have h := ((hc.mul hc).add ((hb.mul hc).smul 2)).add ((hb.mul hb).smul (-1))
  have gb := linz_jet b0s
  have gc := linz_jet cs
  have g := ((gc.mul gc).add ((gb.mul gc).smul 2)).add ((gb.mul gb).smul (-1))
  have hm := mem_amounts hz
  refine ⟨fun i => (g.d1 z trivial i).congr_d ?_, fun i j => ?_, fun i j k => ?_, fun i => (h.d1 z hm i).congr_d ?_,
    fun i j => ?_, fun i j k => ?_⟩
  · simp only [hl, prtDepsDzs]; ring
  · convert g.pd2 isOpen_univ trivial i j using 1
    simp only [prtD2epsDz]; ring
  · convert g.pd3 isOpen_univ trivial i j k using 1
    simp
  · simp only [hz, prtDepsDns]; ring
  · convert h.pd2 amounts_open hm i j using 1
    simp only [hz, prtD2eps]; ring
  · convert h.pd3 amounts_open hm i j k using 1
    simp only [hz, prtD3eps]; ring

/-- **C41.** The `ε` derivatives of the translated Soave-Redlich-Kwong equation. -/
theorem C41_SRK_translated_epsilon (hz : ∑ i, z i = 1) (b0s cs : Fin N → ℝ) :
    (∀ i, PD (fun n => srktEps (linz b0s n) (linz cs n)) i z
      (srktDepsDzs b0s cs (lin b0s z - lin cs z) (lin cs z) i)) ∧
    (∀ i j, PD2 (fun n => srktEps (linz b0s n) (linz cs n)) i j z (srktD2epsDz b0s cs i j)) ∧
    (∀ i j k, PD3 (fun n => srktEps (linz b0s n) (linz cs n)) i j k z 0) ∧
    (∀ i, PD (fun n => srktEps (lin b0s n) (lin cs n)) i z
      (srktDepsDns (lin b0s z - lin cs z) (lin cs z) b0s cs i)) ∧
    (∀ i j, PD2 (fun n => srktEps (lin b0s n) (lin cs n)) i j z
      (srktD2eps b0s cs (lin b0s z - lin cs z) (lin cs z) i j)) ∧
    (∀ i j k, PD3 (fun n => srktEps (lin b0s n) (lin cs n)) i j k z
      (srktD3eps b0s cs (lin b0s z - lin cs z) (lin cs z) i j k)) := by
  have e1 : (fun n : Fin N → ℝ => srktEps (linz b0s n) (linz cs n)) =
      fun n => linz cs n * linz cs n + linz b0s n * linz cs n := by
    funext n; unfold srktEps; ring
  have e2 : (fun n : Fin N → ℝ => srktEps (lin b0s n) (lin cs n)) =
      fun n => lin cs n * lin cs n + lin b0s n * lin cs n := by
    funext n; unfold srktEps; ring
  have hl : ∀ l : Fin N → ℝ, linz l z = lin l z := by intro l; unfold linz lin; rw [hz, div_one]
  rw [e1, e2]
  have hb := lin_jet b0s
  have hc := lin_jet cs
  have h := (hc.mul hc).add (hb.mul hc)
  have gb := linz_jet b0s
  have gc := linz_jet cs
  have g := (gc.mul gc).add (gb.mul gc)
  have hm := mem_amounts hz
  refine ⟨fun i => (g.d1 z trivial i).congr_d ?_, fun i j => ?_, fun i j k => ?_, fun i => (h.d1 z hm i).congr_d ?_,
    fun i j => ?_, fun i j k => ?_⟩
  · simp only [hl, srktDepsDzs]; ring
  · convert g.pd2 isOpen_univ trivial i j using 1
    simp only [srktD2epsDz]; ring
  · convert g.pd3 isOpen_univ trivial i j k using 1
    simp
  · simp only [hz, srktDepsDns]; ring
  · convert h.pd2 amounts_open hm i j using 1
    simp only [hz, srktD2eps]; ring
  · convert h.pd3 amounts_open hm i j k using 1
    simp only [hz, srktD3eps]; ring

/-- **C41.** The attraction, for symmetric interactions and the row sums `Σ_j z_j a_ij`. -/
theorem C41_attraction (hz : ∑ i, z i = 1) {A : Fin N → Fin N → ℝ} (hA : ∀ i j, A i j = A j i) :
    (∀ i, PD (quadz A) i z (daDzs (rowsA A z) i)) ∧
    (∀ i j, PD2 (quadz A) i j z (d2aDzizjs A i j)) ∧
    (∀ i, PD (quad A) i z (daDns (quad A z) (rowsA A z) i)) ∧
    (∀ i, PD (fun n => (∑ m, n m) * quad A n) i z (dnaDns (quad A z) (rowsA A z) i)) ∧
    (∀ i j, PD2 (quad A) i j z (d2aDninjs (quad A z) A (rowsA A z) z i j)) ∧
    (∀ i j k, PD3 (quad A) i j k z (d3aDninjnks (quad A z) A z i j k)) := by
  have hm := mem_amounts hz
  have g := quadz_jet hA Set.univ
  have h := (quadz_jet hA (Amounts N)).mul invsq_jet
  have hq : quadz A z = quad A z := by rw [quad_eq]; simp [hz]
  have h1 : ∀ i, PD (quad A) i z (daDns (quad A z) (rowsA A z) i) := by
    intro i
    have h1 := h.d1 z hm i
    rw [← quad_eq] at h1
    refine h1.congr_d ?_
    simp only [hz, daDns, hq]; ring
  have hrow : ∀ i j, ∑ k, z k * (A i k + A j k) = rowsA A z i + rowsA A z j := by
    intro i j
    simp only [mul_add, Finset.sum_add_distrib, rowsA]
  refine ⟨fun i => (g.d1 z trivial i).congr_d ?_, fun i j => ?_, h1, fun i => ?_, fun i j => ?_, fun i j k => ?_⟩
  · simp only [daDzs]; ring
  · convert g.pd2 isOpen_univ trivial i j using 1
    simp only [d2aDzizjs]; ring
  · refine ((pd_total z i).mul (h1 i)).congr_d ?_
    simp only [hz, daDns, dnaDns]; ring
  · have h2 := h.pd2 amounts_open hm i j
    rw [← quad_eq] at h2
    convert h2 using 1
    have ht : ∀ i j, hessTerm (quad A z) A (rowsA A z) z i j =
        6 * quad A z + 2 * A i j - 4 * (rowsA A z i + rowsA A z j) := by
      intro i j
      unfold hessTerm
      by_cases hij : i = j
      · subst hij; simp only [if_true]; ring
      · simp only [if_neg hij, hrow]; ring
    have : d2aDninjs (quad A z) A (rowsA A z) z i j =
        6 * quad A z + 2 * A i j - 4 * (rowsA A z i + rowsA A z j) := by
      unfold d2aDninjs
      split
      · exact ht i j
      · rw [ht j i, hA j i]; ring
    rw [this]
    simp only [hz, hq]; ring
  · have h2 := h.pd3 amounts_open hm i j k
    rw [← quad_eq] at h2
    convert h2 using 1
    have : ∑ m, z m * (A i m + A j m + A k m) = rowsA A z i + rowsA A z j + rowsA A z k := by
      simp only [mul_add, Finset.sum_add_distrib, rowsA]
    simp only [hz, hq, d3aDninjnks, this]; ring

end Theorems

/-- Composition, covolumes and interactions that satisfy the hypotheses of this module, with a third derivative that does
not vanish. -/
example : ∃ (z bs : Fin 2 → ℝ) (A : Fin 2 → Fin 2 → ℝ), ∑ i, z i = 1 ∧ (∀ i j, A i j = A j i) ∧
    lin bs z = 3 / 2 ∧ d3bDninjnks (lin bs z) bs 0 0 1 = -1 ∧ A 0 1 ≠ A 0 0 := by
  have hl : lin ![(1 : ℝ), 2] ![(1 : ℝ) / 2, 1 / 2] = 3 / 2 := by
    norm_num [lin, Fin.sum_univ_two]
  refine ⟨![1 / 2, 1 / 2], ![1, 2], ![![1, 3], ![3, 5]], by norm_num [Fin.sum_univ_two], ?_, hl, ?_, ?_⟩
  · intro i j; fin_cases i <;> fin_cases j <;> rfl
  · rw [hl]; norm_num [d3bDninjnks]
  · norm_num

end Verif.MixDerivs
