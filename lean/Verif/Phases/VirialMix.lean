import Verif.Phases.Virial
import Mathlib.Analysis.SpecialFunctions.Pow.Deriv

/-!
# Virial coefficients of mixtures (`thermo/phases/virial_phase.py`, classes `VirialCSP` and `VirialGas`)

* C118: interaction coefficients are symmetric and have the pure component coefficients on the diagonal, so that a mixture
  of one component behaves like that component; mixing rules have the reported temperature, composition and mole number
  derivatives; whatever states a gas went through and whatever was cached, the coefficients it reports are those of its own
  temperature and composition. The setting `cross_B_model='Zeros'` has no effect, and for one component the composition
  derivative is not that of the reported coefficient.

The corresponding states correlations of `chemicals` are arbitrary functions (`Lib`); the combination rules for the
critical properties and the mixing rules of `chemicals` are modelled by their documented formulas. The solvers for the
compressibility factor and for the temperature are oracles. Hashes, JSON and the ideal gas part are not modelled.
-/

namespace Verif.Phase.VirialMix

open Verif.GibbsExcess (dxsToDns dxsToDnPartials extensive)
open Finset Filter Topology

variable {N : ℕ}

/-! ## Model -/

/-- `VIRIAL_B_MODELS` (88-98). -/
inductive BModel | zero | pitzerCurl | abbott | tsonopoulos | tsonopoulosExt | oconnell | xiang | meng
  deriving DecidableEq

/-- `VIRIAL_C_MODELS` (105-110). -/
inductive CModel | zero | xiang | orbeyVera
  deriving DecidableEq

/-- `VIRIAL_CROSS_B_MODELS_SET`, `VIRIAL_CROSS_C_MODELS_SET` (112-118). -/
inductive CrossModel | tarakadDanner | zeros
  deriving DecidableEq

/-- A coefficient and its first three temperature derivatives. -/
abbrev J := Fin 4 → ℝ

/-- The correlations of `chemicals.virial`, by temperature, critical properties and acentric factor; `_vec` and `_mat`
apply the same correlation to every component or pair. `op2`, `op3` are the second and third temperature derivatives of
the third coefficient of a mixture. -/
structure Lib (N : ℕ) where
  (pitzerCurl abbott tsonopoulos oconnell orbeyVera : (T Tc Pc omega : ℝ) → J)
  (tsonopoulosExt : (T Tc Pc omega a b : ℝ) → J)
  (xiang liuXiang : (T Tc Pc Vc omega : ℝ) → J)
  (meng : (T Tc Pc Vc omega a : ℝ) → J)
  (op2 op3 : (Fin N → ℝ) → (Fin 4 → Fin N → Fin N → ℝ) → ℝ)

/-- The constants of `VirialCSP` (359-444, 371-424); omitted parameter matrices are zero there. -/
structure Consts (N : ℕ) where
  (Tcs Pcs Vcs omegas : Fin N → ℝ)
  (kijs mengA tsA tsB : Fin N → Fin N → ℝ)
  bModel : BModel
  cModel : CModel
  crossB : CrossModel
  crossC : CrossModel

namespace Consts
variable (c : Consts N)

/-- `Tarakad_Danner_virial_CSP_Tcijs` (428). -/
noncomputable def Tcij (i j : Fin N) : ℝ := √(c.Tcs i * c.Tcs j) * (1 - c.kijs i j)

/-- `Tarakad_Danner_virial_CSP_Pcijs` (429). -/
noncomputable def Pcij (i j : Fin N) : ℝ :=
  4 * c.Tcij i j * (c.Pcs i * c.Vcs i / c.Tcs i + c.Pcs j * c.Vcs j / c.Tcs j)
    / (c.Vcs i ^ (1 / 3 : ℝ) + c.Vcs j ^ (1 / 3 : ℝ)) ^ 3

/-- `Lee_Kesler_virial_CSP_Vcijs` (430). -/
noncomputable def Vcij (i j : Fin N) : ℝ := 1 / 8 * (c.Vcs i ^ (1 / 3 : ℝ) + c.Vcs j ^ (1 / 3 : ℝ)) ^ 3

/-- `Tarakad_Danner_virial_CSP_omegaijs` (431). -/
noncomputable def omegaij (i j : Fin N) : ℝ := (c.omegas i + c.omegas j) / 2

/-- `B_interactions_at_T` (499-540). -/
noncomputable def bInter (L : Lib N) (T : ℝ) (k : Fin 4) (i j : Fin N) : ℝ :=
  match c.bModel with
  | .zero => 0
  | .pitzerCurl => L.pitzerCurl T (c.Tcij i j) (c.Pcij i j) (c.omegaij i j) k
  | .abbott => L.abbott T (c.Tcij i j) (c.Pcij i j) (c.omegaij i j) k
  | .tsonopoulos => L.tsonopoulos T (c.Tcij i j) (c.Pcij i j) (c.omegaij i j) k
  | .tsonopoulosExt => L.tsonopoulosExt T (c.Tcij i j) (c.Pcij i j) (c.omegaij i j) (c.tsA i j) (c.tsB i j) k
  | .oconnell => L.oconnell T (c.Tcij i j) (c.Pcij i j) (c.omegaij i j) k
  | .xiang => L.xiang T (c.Tcij i j) (c.Pcij i j) (c.Vcij i j) (c.omegaij i j) k
  | .meng => L.meng T (c.Tcij i j) (c.Pcij i j) (c.Vcij i j) (c.omegaij i j) (c.mengA i j) k

/-- `B_pures_at_T` (553-594) with the diagonals `B_model_Meng_as_pure` and so on (403, 410, 417). -/
def bPure (L : Lib N) (T : ℝ) (k : Fin 4) (i : Fin N) : ℝ :=
  match c.bModel with
  | .zero => 0
  | .pitzerCurl => L.pitzerCurl T (c.Tcs i) (c.Pcs i) (c.omegas i) k
  | .abbott => L.abbott T (c.Tcs i) (c.Pcs i) (c.omegas i) k
  | .tsonopoulos => L.tsonopoulos T (c.Tcs i) (c.Pcs i) (c.omegas i) k
  | .tsonopoulosExt => L.tsonopoulosExt T (c.Tcs i) (c.Pcs i) (c.omegas i) (c.tsA i i) (c.tsB i i) k
  | .oconnell => L.oconnell T (c.Tcs i) (c.Pcs i) (c.omegas i) k
  | .xiang => L.xiang T (c.Tcs i) (c.Pcs i) (c.Vcs i) (c.omegas i) k
  | .meng => L.meng T (c.Tcs i) (c.Pcs i) (c.Vcs i) (c.omegas i) (c.mengA i i) k

/-- `C_interactions_at_T` (715-739); the parameters are those of the second coefficient (433-436). -/
noncomputable def cInter (L : Lib N) (T : ℝ) (k : Fin 4) (i j : Fin N) : ℝ :=
  match c.cModel with
  | .zero => 0
  | .xiang => L.liuXiang T (c.Tcij i j) (c.Pcij i j) (c.Vcij i j) (c.omegaij i j) k
  | .orbeyVera => L.orbeyVera T (c.Tcij i j) (c.Pcij i j) (c.omegaij i j) k

/-- `C_pures_at_T` (741-763). -/
def cPure (L : Lib N) (T : ℝ) (k : Fin 4) (i : Fin N) : ℝ :=
  match c.cModel with
  | .zero => 0
  | .xiang => L.liuXiang T (c.Tcs i) (c.Pcs i) (c.Vcs i) (c.omegas i) k
  | .orbeyVera => L.orbeyVera T (c.Tcs i) (c.Pcs i) (c.omegas i) k

end Consts

/-- Real cube root. -/
noncomputable def cbrt (x : ℝ) : ℝ := if 0 ≤ x then x ^ (1 / 3 : ℝ) else -((-x) ^ (1 / 3 : ℝ))

/-- The summand `(Cij Cik Cjk)^(1/3)` of the rule of Orentlicher and Prausnitz. -/
noncomputable def tri (C : Fin N → Fin N → ℝ) (i j k : Fin N) : ℝ := cbrt (C i j * C i k * C j k)

/-- Temperature derivative of the summand. -/
noncomputable def dtri (C dC : Fin N → Fin N → ℝ) (i j k : Fin N) : ℝ :=
  tri C i j k * (dC i j * C i k * C j k + C i j * dC i k * C j k + C i j * C i k * dC j k)
    / (3 * (C i j * C i k * C j k))

/-- `Σ zi zj zk t_ijk`. -/
def cubic (t : Fin N → Fin N → Fin N → ℝ) (z : Fin N → ℝ) : ℝ := ∑ i, ∑ j, ∑ k, z i * z j * z k * t i j k

/-- Its first composition derivatives. -/
def dcubic (t : Fin N → Fin N → Fin N → ℝ) (z : Fin N → ℝ) (m : Fin N) : ℝ :=
  ∑ j, ∑ k, z j * z k * (t m j k + t j m k + t j k m)

/-- Its second composition derivatives. -/
def d2cubic (t : Fin N → Fin N → Fin N → ℝ) (z : Fin N → ℝ) (m n : Fin N) : ℝ :=
  ∑ k, z k * (t m n k + t n m k + t m k n + t n k m + t k m n + t k n m)

/-- Its third composition derivatives. -/
def d3cubic (t : Fin N → Fin N → Fin N → ℝ) (m n o : Fin N) : ℝ :=
  t m n o + t n m o + t m o n + t n o m + t o m n + t o n m

/-- `CVirial_mixture_Orentlicher_Prausnitz` and its temperature derivatives by the interaction coefficients. -/
noncomputable def opMix (L : Lib N) (k : Fin 4) (z : Fin N → ℝ) (C : Fin 4 → Fin N → Fin N → ℝ) : ℝ :=
  match k with
  | 0 => cubic (tri (C 0)) z
  | 1 => cubic (dtri (C 0) (C 1)) z
  | 2 => L.op2 z C
  | 3 => L.op3 z C

/-- `VirialCSP`: constants, temperature and the coefficients calculated so far (254-257, 543-603, 766-782). -/
structure Model (N : ℕ) where
  c : Consts N
  T : ℝ
  pureB : Option (Fin 4 → Fin N → ℝ) := none
  crossB : Option (Fin 4 → Fin N → Fin N → ℝ) := none
  pureC : Option (Fin 4 → Fin N → ℝ) := none
  crossC : Option (Fin 4 → Fin N → Fin N → ℝ) := none

namespace Model
variable (L : Lib N) (m : Model N)

/-- `VirialCSP.to` (446-495). -/
def at' (T : ℝ) : Model N := { c := m.c, T := T }

/-- `B_pures` and its derivatives (596-658). -/
def getPureB : (Fin 4 → Fin N → ℝ) × Model N :=
  match m.pureB with
  | some v => (v, m)
  | none => (m.c.bPure L m.T, { m with pureB := some (m.c.bPure L m.T) })

/-- `B_interactions` and its derivatives (543-550, 660-713). -/
noncomputable def getCrossB : (Fin 4 → Fin N → Fin N → ℝ) × Model N :=
  match m.crossB with
  | some v => (v, m)
  | none => (m.c.bInter L m.T, { m with crossB := some (m.c.bInter L m.T) })

/-- `C_pures` and its derivatives (766-773, 784-837). -/
def getPureC : (Fin 4 → Fin N → ℝ) × Model N :=
  match m.pureC with
  | some v => (v, m)
  | none => (m.c.cPure L m.T, { m with pureC := some (m.c.cPure L m.T) })

/-- `C_interactions` and its derivatives (775-782, 839-895). -/
noncomputable def getCrossC : (Fin 4 → Fin N → Fin N → ℝ) × Model N :=
  match m.crossC with
  | some v => (v, m)
  | none => (m.c.cInter L m.T, { m with crossC := some (m.c.cInter L m.T) })

end Model

/-- `VirialGas`: `theoryB` and `theoryC` are `has_cross_B_coefficients` and `has_cross_C_coefficients` (997-998),
`memoB`, `memoC` the cached values `_B`, `_dB_dT`, ... -/
structure Gas (N : ℕ) where
  model : Model N
  (T P V : ℝ)
  zs : Fin N → ℝ
  (theoryB theoryC : Bool)
  memoB : Fin 4 → Option ℝ := fun _ => none
  memoC : Fin 4 → Option ℝ := fun _ => none

namespace Gas
variable (L : Lib N) (g : Gas N)

open Classical in
/-- `B_at`, `dB_dT_at`, `d2B_dT2_at`, `d3B_dT3_at` (1924-2056). -/
noncomputable def bAt (k : Fin 4) (T : ℝ) (zs : Fin N → ℝ) : ℝ × Gas N :=
  if h : N = 1 then
    if T = g.T then ((g.model.getPureB L).1 k ⟨0, by omega⟩, { g with model := (g.model.getPureB L).2 })
    else (g.model.c.bPure L T k ⟨0, by omega⟩, g)
  else if !g.theoryB then
    if T = g.T then (∑ i, zs i * (g.model.getPureB L).1 k i, { g with model := (g.model.getPureB L).2 })
    else (∑ i, zs i * g.model.c.bPure L T k i, g)
  else
    if T = g.T then
      (∑ i, ∑ j, zs i * zs j * (g.model.getCrossB L).1 k i j, { g with model := (g.model.getCrossB L).2 })
    else (∑ i, ∑ j, zs i * zs j * g.model.c.bInter L T k i j, g)

open Classical in
/-- `C_at`, `dC_dT_at`, `d2C_dT2_at`, `d3C_dT3_at` (2058-2188). -/
noncomputable def cAt (k : Fin 4) (T : ℝ) (zs : Fin N → ℝ) : ℝ × Gas N :=
  if g.model.c.cModel = .zero then (0, g)
  else if h : N = 1 then
    if T = g.T then ((g.model.getPureC L).1 k ⟨0, by omega⟩, { g with model := (g.model.getPureC L).2 })
    else (g.model.c.cPure L T k ⟨0, by omega⟩, g)
  else if !g.theoryC then
    if T = g.T then (∑ i, zs i * (g.model.getPureC L).1 k i, { g with model := (g.model.getPureC L).2 })
    else (∑ i, zs i * g.model.c.cPure L T k i, g)
  else
    if T = g.T then (opMix L k zs (g.model.getCrossC L).1, { g with model := (g.model.getCrossC L).2 })
    else (opMix L k zs (g.model.c.cInter L T), g)

/-- `B`, `dB_dT`, `d2B_dT2`, `d3B_dT3` (1942-1954 and so on). -/
noncomputable def b (k : Fin 4) : ℝ × Gas N :=
  match g.memoB k with
  | some v => (v, g)
  | none =>
    let r := g.bAt L k g.T g.zs
    (r.1, { r.2 with memoB := Function.update r.2.memoB k (some r.1) })

/-- `C`, `dC_dT`, `d2C_dT2`, `d3C_dT3` (2078-2090 and so on). -/
noncomputable def c (k : Fin 4) : ℝ × Gas N :=
  match g.memoC k with
  | some v => (v, g)
  | none =>
    let r := g.cAt L k g.T g.zs
    (r.1, { r.2 with memoC := Function.update r.2.memoC k (some r.1) })

/-- The gas constant and the two external solvers: `Z_from_virial_density_form` and the Newton iteration for the
temperature. -/
structure Env (N : ℕ) where
  R : ℝ
  Z : (T P B C : ℝ) → ℝ
  newtonT : Gas N → (P V : ℝ) → (Fin N → ℝ) → ℝ

/-- `to_TP_zs` (1847-1866) and `to` with temperature and pressure (1868-1890). -/
noncomputable def toTP (E : Env N) (T P : ℝ) (zs : Fin N → ℝ) : Gas N :=
  let new : Gas N := { model := g.model.at' T, T := T, P := P, V := 0, zs := zs, theoryB := g.theoryB, theoryC := g.theoryC }
  let rB := new.b L 0
  let rC := rB.2.c L 0
  { rC.2 with V := E.Z T P rB.1 rC.1 * E.R * T / P }

/-- `to` with temperature and volume (1882-1884, 1891-1893). -/
noncomputable def toTV (E : Env N) (T V : ℝ) (zs : Fin N → ℝ) : Gas N :=
  let new : Gas N := { model := g.model.at' T, T := T, P := 0, V := V, zs := zs, theoryB := g.theoryB, theoryC := g.theoryC }
  let rB := new.b L 0
  let rC := rB.2.c L 0
  { rC.2 with P := E.R * T * (V * V + V * rB.1 + rC.1) / (V * V * V) }

/-- `to` with pressure and volume (1896-1918). -/
def toPV (E : Env N) (P V : ℝ) (zs : Fin N → ℝ) : Gas N :=
  { model := g.model.at' (E.newtonT g P V zs), T := E.newtonT g P V zs, P := P, V := V, zs := zs,
    theoryB := g.theoryB, theoryC := g.theoryC }

/-- `VirialGas.__init__` (978-1014). -/
noncomputable def create (E : Env N) (model : Model N) (theoryB theoryC : Bool) (T P : ℝ) (zs : Fin N → ℝ) : Gas N :=
  let new : Gas N := { model := model.at' T, T := T, P := P, V := 0, zs := zs, theoryB := theoryB, theoryC := theoryC }
  let rB := new.b L 0
  let rC := rB.2.c L 0
  { rC.2 with V := E.Z T P rB.1 rC.1 * E.R * T / P }

/-- What a program can do with a gas. -/
inductive Op (N : ℕ)
  | toTP (T P : ℝ) (zs : Fin N → ℝ)
  | toTV (T V : ℝ) (zs : Fin N → ℝ)
  | toPV (P V : ℝ) (zs : Fin N → ℝ)
  | askB (k : Fin 4)
  | askC (k : Fin 4)
  | askBAt (k : Fin 4) (T : ℝ) (zs : Fin N → ℝ)
  | askCAt (k : Fin 4) (T : ℝ) (zs : Fin N → ℝ)

/-- The gas after an operation. -/
noncomputable def step (E : Env N) : Op N → Gas N
  | .toTP T P zs => g.toTP L E T P zs
  | .toTV T V zs => g.toTV L E T V zs
  | .toPV P V zs => g.toPV E P V zs
  | .askB k => (g.b L k).2
  | .askC k => (g.c L k).2
  | .askBAt k T zs => (g.bAt L k T zs).2
  | .askCAt k T zs => (g.cAt L k T zs).2

end Gas

/-- `dB_dzs`, `d2B_dTdzs`, `d3B_dT2dzs`, `d4B_dT3dzs` (2206-2327). -/
noncomputable def dBdzs (L : Lib N) (c : Consts N) (theory : Bool) (T : ℝ) (k : Fin 4) (z : Fin N → ℝ) (i : Fin N) : ℝ :=
  if !theory then c.bPure L T k i else ∑ j, z j * (c.bInter L T k i j + c.bInter L T k j i)

/-- `d2B_dzizjs`, `d3B_dTdzizjs`, `d4B_dT2dzizjs` (2329-2418). -/
noncomputable def d2Bdzizjs (L : Lib N) (c : Consts N) (theory : Bool) (T : ℝ) (k : Fin 4) (i j : Fin N) : ℝ :=
  if !theory then 0 else c.bInter L T k i j + c.bInter L T k j i

/-- `d3B_dzizjzks` and its aliases (2420-2451): all zero. -/
def d3Bdzizjzks (_ _ _ : Fin N) : ℝ := 0

/-- `dC_dzs` (2498-2528) for `k = 0` and `d2C_dTdzs` (2530-2560) for `k = 1`. -/
noncomputable def dCdzs (L : Lib N) (c : Consts N) (theory : Bool) (T : ℝ) (k : Fin 2) (z : Fin N → ℝ) (i : Fin N) : ℝ :=
  if !theory then c.cPure L T (k.castLE (by omega)) i
  else if c.cModel = .zero then 0
  else if k = 0 then dcubic (tri (c.cInter L T 0)) z i
  else dcubic (dtri (c.cInter L T 0) (c.cInter L T 1)) z i

/-- `d2C_dzizjs` (2565-2598). -/
noncomputable def d2Cdzizjs (L : Lib N) (c : Consts N) (theory : Bool) (T : ℝ) (z : Fin N → ℝ) (i j : Fin N) : ℝ :=
  if !theory then 0 else if c.cModel = .zero then 0 else d2cubic (tri (c.cInter L T 0)) z i j

/-- `d3C_dzizjzks` (2601-2632). -/
noncomputable def d3Cdzizjzks (L : Lib N) (c : Consts N) (theory : Bool) (T : ℝ) (i j k : Fin N) : ℝ :=
  if !theory then 0 else if c.cModel = .zero then 0 else d3cubic (tri (c.cInter L T 0)) i j k

/-- `dB_dns`, `dC_dns` (2453-2473, 2634-2654). -/
def dns (dzs z : Fin N → ℝ) : Fin N → ℝ := dxsToDns dzs z

/-- `dnB_dns`, `dnC_dns` (2475-2496, 2656-2677). -/
def dnns (dzs z : Fin N → ℝ) (X : ℝ) : Fin N → ℝ := dxsToDnPartials dzs z X

/-! ## Specification -/

/-- The second coefficient of a mixture (`k = 0`) and its temperature derivatives: that of the component for one component,
otherwise the statistical rule or the mole fraction average. -/
noncomputable def specB (L : Lib N) (c : Consts N) (theory : Bool) (k : Fin 4) (T : ℝ) (z : Fin N → ℝ) : ℝ :=
  if N = 1 then ∑ i, c.bPure L T k i
  else match theory with
    | true => ∑ p : Fin N × Fin N, z p.1 * z p.2 * c.bInter L T k p.1 p.2
    | false => ∑ i, z i * c.bPure L T k i

/-- The third coefficient of a mixture and its temperature derivatives; nothing of the correlations is left when the model
is off. -/
noncomputable def specC (L : Lib N) (c : Consts N) (theory : Bool) (k : Fin 4) (T : ℝ) (z : Fin N → ℝ) : ℝ :=
  match c.cModel with
  | .zero => 0
  | _ =>
    if N = 1 then ∑ i, c.cPure L T k i
    else match theory with
      | true => opMix L k z (c.cInter L T)
      | false => ∑ i, z i * c.cPure L T k i

theorem specC_on (L : Lib N) (c : Consts N) {theory : Bool} {k : Fin 4} {T : ℝ} {z : Fin N → ℝ} (hz : c.cModel ≠ .zero) :
    specC L c theory k T z = if N = 1 then ∑ i, c.cPure L T k i
      else match theory with
        | true => opMix L k z (c.cInter L T)
        | false => ∑ i, z i * c.cPure L T k i := by
  unfold specC
  cases hm : c.cModel with
  | zero => exact absurd hm hz
  | xiang => rfl
  | orbeyVera => rfl

/-- The cached coefficients are those of the object's own temperature. -/
structure Model.Ok (L : Lib N) (c : Consts N) (m : Model N) : Prop where
  consts : m.c = c
  pureB : ∀ v, m.pureB = some v → v = c.bPure L m.T
  crossB : ∀ v, m.crossB = some v → v = c.bInter L m.T
  pureC : ∀ v, m.pureC = some v → v = c.cPure L m.T
  crossC : ∀ v, m.crossC = some v → v = c.cInter L m.T

/-- The coefficients' object has the temperature of the gas, and cached values are those of temperature and composition. -/
structure Gas.Ok (L : Lib N) (c : Consts N) (tB tC : Bool) (g : Gas N) : Prop where
  model : g.model.Ok L c
  temp : g.model.T = g.T
  theoryB : g.theoryB = tB
  theoryC : g.theoryC = tC
  memoB : ∀ k v, g.memoB k = some v → v = specB L c tB k g.T g.zs
  memoC : ∀ k v, g.memoC k = some v → v = specC L c tC k g.T g.zs

/-! ## Combination rules -/

section Rules
variable (L : Lib N) (c : Consts N)

theorem cbrt_cube (x : ℝ) : cbrt (x * x * x) = x := by
  unfold cbrt
  rcases le_or_gt 0 x with h | h
  · rw [if_pos (by positivity)]
    have : x * x * x = x ^ (3 : ℕ) := by ring
    rw [this, ← Real.rpow_natCast, ← Real.rpow_mul h]
    norm_num
  · rw [if_neg (by nlinarith [mul_pos_of_neg_of_neg h h])]
    have : -(x * x * x) = (-x) ^ (3 : ℕ) := by ring
    rw [this, ← Real.rpow_natCast, ← Real.rpow_mul (by linarith)]
    norm_num

theorem cbrt_pow (x : ℝ) : cbrt x ^ 3 = x := by
  unfold cbrt
  split_ifs with h
  · rw [← Real.rpow_natCast, ← Real.rpow_mul h]; norm_num
  · have h' : 0 ≤ -x := by push Not at h; linarith
    have : ((-x) ^ (1 / 3 : ℝ)) ^ 3 = -x := by rw [← Real.rpow_natCast, ← Real.rpow_mul h']; norm_num
    linear_combination -this

theorem cbrt_deriv {x : ℝ} (hx : x ≠ 0) : HasDerivAt cbrt (cbrt x / (3 * x)) x := by
  rcases lt_or_gt_of_ne hx with h | h
  · have k : HasDerivAt (fun y : ℝ => -((-y) ^ (1 / 3 : ℝ))) (-(-1 * (1 / 3) * (-x) ^ ((1 / 3 : ℝ) - 1))) x :=
      ((hasDerivAt_neg x).rpow_const (p := 1 / 3) (Or.inl (by simpa using hx))).neg
    have e : cbrt =ᶠ[𝓝 x] fun y : ℝ => -((-y) ^ (1 / 3 : ℝ)) := by
      filter_upwards [eventually_lt_nhds h] with y hy
      simp only [cbrt, if_neg (not_le.mpr hy)]
    refine (k.congr_of_eventuallyEq e).congr_deriv ?_
    rw [Real.rpow_sub_one (by simpa using hx)]
    simp only [cbrt, if_neg (not_le.mpr h)]
    field_simp
  · have k : HasDerivAt (fun y : ℝ => y ^ (1 / 3 : ℝ)) (1 * (1 / 3) * x ^ ((1 / 3 : ℝ) - 1)) x :=
      (hasDerivAt_id x).rpow_const (p := 1 / 3) (Or.inl hx)
    have e : cbrt =ᶠ[𝓝 x] fun y : ℝ => y ^ (1 / 3 : ℝ) := by
      filter_upwards [eventually_gt_nhds h] with y hy
      simp only [cbrt, if_pos hy.le]
    refine (k.congr_of_eventuallyEq e).congr_deriv ?_
    rw [Real.rpow_sub_one hx]
    simp only [cbrt, if_pos h.le]
    field_simp

/-- **C118.** With symmetric interaction parameters the interaction coefficients and their derivatives are symmetric. -/
theorem C118_symmetric (hk : ∀ i j, c.kijs i j = c.kijs j i) (hM : ∀ i j, c.mengA i j = c.mengA j i)
    (hA : ∀ i j, c.tsA i j = c.tsA j i) (hB : ∀ i j, c.tsB i j = c.tsB j i) (T : ℝ) (k : Fin 4) (i j : Fin N) :
    c.bInter L T k i j = c.bInter L T k j i ∧ c.cInter L T k i j = c.cInter L T k j i := by
  have h1 : c.Tcij i j = c.Tcij j i := by simp only [Consts.Tcij, hk i j, mul_comm (c.Tcs i)]
  have h2 : c.Pcij i j = c.Pcij j i := by
    simp only [Consts.Pcij, h1, add_comm (c.Pcs i * c.Vcs i / c.Tcs i), add_comm (c.Vcs i ^ (1 / 3 : ℝ))]
  have h3 : c.Vcij i j = c.Vcij j i := by simp only [Consts.Vcij, add_comm (c.Vcs i ^ (1 / 3 : ℝ))]
  have h4 : c.omegaij i j = c.omegaij j i := by simp only [Consts.omegaij, add_comm]
  constructor
  · simp only [Consts.bInter, h1, h2, h3, h4, hM i j, hA i j, hB i j]
  · simp only [Consts.cInter, h1, h2, h3, h4]

/-- **C118.** The parameters of a pair of equal components are those of the component, so the diagonal of the interaction
coefficients are the coefficients of the pure components (without an interaction of a component with itself). -/
theorem C118_diagonal {i : Fin N} (hT : 0 < c.Tcs i) (hV : 0 < c.Vcs i) (hk : c.kijs i i = 0) :
    (c.Tcij i i = c.Tcs i ∧ c.Pcij i i = c.Pcs i ∧ c.Vcij i i = c.Vcs i ∧ c.omegaij i i = c.omegas i) ∧
    (∀ T k, c.bInter L T k i i = c.bPure L T k i) ∧ ∀ T k, c.cInter L T k i i = c.cPure L T k i := by
  have hv : (c.Vcs i ^ (1 / 3 : ℝ)) ^ 3 = c.Vcs i := by
    rw [← Real.rpow_natCast, ← Real.rpow_mul hV.le]; norm_num
  have h1 : c.Tcij i i = c.Tcs i := by simp [Consts.Tcij, hk, Real.sqrt_mul_self hT.le]
  have h3 : c.Vcij i i = c.Vcs i := by
    simp only [Consts.Vcij]; linear_combination hv
  have h2 : c.Pcij i i = c.Pcs i := by
    simp only [Consts.Pcij, h1]
    have : (c.Vcs i ^ (1 / 3 : ℝ) + c.Vcs i ^ (1 / 3 : ℝ)) ^ 3 = 8 * c.Vcs i := by linear_combination 8 * hv
    rw [this]
    field_simp
    ring
  have h4 : c.omegaij i i = c.omegas i := by simp [Consts.omegaij]
  refine ⟨⟨h1, h2, h3, h4⟩, fun T k => ?_, fun T k => ?_⟩
  · simp only [Consts.bInter, Consts.bPure, h1, h2, h3, h4]
  · simp only [Consts.cInter, Consts.cPure, h1, h2, h3, h4]

/-- **C118.** A mixture of which only component `i` is present has the coefficients of component `i` and their temperature
derivatives, under both mixing rules (third coefficient: value, and slope where it is not zero). -/
theorem C118_pure_limit (hN : N ≠ 1) {i : Fin N} (hT : 0 < c.Tcs i) (hV : 0 < c.Vcs i) (hk : c.kijs i i = 0) (theory : Bool)
    (T : ℝ) :
    (∀ k, specB L c theory k T (Pi.single i 1) = c.bPure L T k i) ∧
    specC L c theory 0 T (Pi.single i 1) = c.cPure L T 0 i ∧
    (c.cPure L T 0 i ≠ 0 → specC L c theory 1 T (Pi.single i 1) = c.cPure L T 1 i) := by
  obtain ⟨-, hB, hC⟩ := C118_diagonal L c hT hV hk
  have s1 : ∀ f : Fin N → ℝ, ∑ a, (Pi.single i (1 : ℝ) : Fin N → ℝ) a * f a = f i := fun f => by
    rw [sum_eq_single i] <;> simp +contextual [Pi.single_apply]
  have s3 : ∀ t : Fin N → Fin N → Fin N → ℝ, cubic t (Pi.single i 1) = t i i i := fun t => by
    unfold cubic
    rw [← s1 fun a => t a i i]
    refine sum_congr rfl fun a _ => ?_
    rw [← s1 fun b => t a b i, mul_sum]
    refine sum_congr rfl fun b _ => ?_
    rw [← s1 fun d => t a b d, mul_sum, mul_sum]
    exact sum_congr rfl fun d _ => by ring
  refine ⟨fun k => ?_, ?_, ?_⟩
  · simp only [specB, if_neg hN]
    cases theory with
    | true =>
      simp only [Fintype.sum_prod_type]
      rw [← hB T k, ← s1 fun a => c.bInter L T k a i]
      refine sum_congr rfl fun a _ => ?_
      rw [← s1 fun b => c.bInter L T k a b, mul_sum]
      exact sum_congr rfl fun b _ => by ring
    | false => exact s1 _
  · have : tri (c.cInter L T 0) i i i = c.cPure L T 0 i := by simp only [tri, hC, cbrt_cube]
    unfold specC
    cases hm : c.cModel with
    | zero => simp [Consts.cPure, hm]
    | xiang =>
      simp only [if_neg hN]
      cases theory with
      | true => simp only [opMix, s3, this]
      | false => exact s1 _
    | orbeyVera =>
      simp only [if_neg hN]
      cases theory with
      | true => simp only [opMix, s3, this]
      | false => exact s1 _
  · intro h0
    have : dtri (c.cInter L T 0) (c.cInter L T 1) i i i = c.cPure L T 1 i := by
      simp only [dtri, tri, hC, cbrt_cube]
      field_simp
      ring
    unfold specC
    cases hm : c.cModel with
    | zero => simp [Consts.cPure, hm]
    | xiang =>
      simp only [if_neg hN]
      cases theory with
      | true => simp only [opMix, s3, this]
      | false => exact s1 _
    | orbeyVera =>
      simp only [if_neg hN]
      cases theory with
      | true => simp only [opMix, s3, this]
      | false => exact s1 _

end Rules

/-! ## States -/

section States
variable {L : Lib N} {c : Consts N} {tB tC : Bool} {g : Gas N} {E : Gas.Env N}

theorem getPureB_ok {m : Model N} (h : m.Ok L c) :
    (m.getPureB L).1 = c.bPure L m.T ∧ (m.getPureB L).2.Ok L c ∧ (m.getPureB L).2.T = m.T := by
  unfold Model.getPureB
  cases e : m.pureB with
  | some v => exact ⟨h.pureB v e, h, rfl⟩
  | none => exact ⟨by rw [h.consts], ⟨h.consts, fun v hv => by simp only [Option.some.injEq] at hv; rw [← hv, h.consts], h.crossB, h.pureC, h.crossC⟩, rfl⟩

theorem getCrossB_ok {m : Model N} (h : m.Ok L c) :
    (m.getCrossB L).1 = c.bInter L m.T ∧ (m.getCrossB L).2.Ok L c ∧ (m.getCrossB L).2.T = m.T := by
  unfold Model.getCrossB
  cases e : m.crossB with
  | some v => exact ⟨h.crossB v e, h, rfl⟩
  | none => exact ⟨by rw [h.consts], ⟨h.consts, h.pureB, fun v hv => by simp only [Option.some.injEq] at hv; rw [← hv, h.consts], h.pureC, h.crossC⟩, rfl⟩

theorem getPureC_ok {m : Model N} (h : m.Ok L c) :
    (m.getPureC L).1 = c.cPure L m.T ∧ (m.getPureC L).2.Ok L c ∧ (m.getPureC L).2.T = m.T := by
  unfold Model.getPureC
  cases e : m.pureC with
  | some v => exact ⟨h.pureC v e, h, rfl⟩
  | none => exact ⟨by rw [h.consts], ⟨h.consts, h.pureB, h.crossB, fun v hv => by simp only [Option.some.injEq] at hv; rw [← hv, h.consts], h.crossC⟩, rfl⟩

theorem getCrossC_ok {m : Model N} (h : m.Ok L c) :
    (m.getCrossC L).1 = c.cInter L m.T ∧ (m.getCrossC L).2.Ok L c ∧ (m.getCrossC L).2.T = m.T := by
  unfold Model.getCrossC
  cases e : m.crossC with
  | some v => exact ⟨h.crossC v e, h, rfl⟩
  | none => exact ⟨by rw [h.consts], ⟨h.consts, h.pureB, h.crossB, h.pureC, fun v hv => by simp only [Option.some.injEq] at hv; rw [← hv, h.consts]⟩, rfl⟩

theorem Gas.Ok.with_model (h : g.Ok L c tB tC) {m : Model N} (h1 : m.Ok L c) (h2 : m.T = g.model.T) :
    Gas.Ok L c tB tC { g with model := m } :=
  ⟨h1, h2.trans h.temp, h.theoryB, h.theoryC, h.memoB, h.memoC⟩

/-- The parts of a gas a query does not change. -/
def Gas.Same (g g' : Gas N) : Prop := g'.T = g.T ∧ g'.P = g.P ∧ g'.V = g.V ∧ g'.zs = g.zs

theorem sum_one (h : N = 1) (f : Fin N → ℝ) : ∑ i, f i = f ⟨0, by omega⟩ := by
  subst h; simp

theorem bAt_ok (h : g.Ok L c tB tC) (k : Fin 4) (T : ℝ) (zs : Fin N → ℝ) :
    (g.bAt L k T zs).1 = specB L c tB k T zs ∧ (g.bAt L k T zs).2.Ok L c tB tC ∧ g.Same (g.bAt L k T zs).2 := by
  have p := getPureB_ok h.model
  have x := getCrossB_ok h.model
  unfold Gas.bAt specB
  by_cases hN : N = 1
  · rw [dif_pos hN, if_pos hN, sum_one hN]
    by_cases hT : T = g.T
    · rw [if_pos hT]
      refine ⟨by rw [p.1, h.temp, hT], h.with_model p.2.1 p.2.2, rfl, rfl, rfl, rfl⟩
    · rw [if_neg hT]
      exact ⟨by rw [h.model.consts], h, rfl, rfl, rfl, rfl⟩
  · rw [dif_neg hN, if_neg hN, ← h.theoryB]
    cases hB : g.theoryB with
    | false =>
      simp only [Bool.not_false, if_true]
      by_cases hT : T = g.T
      · rw [if_pos hT]
        have := h.with_model p.2.1 p.2.2
        rw [← h.theoryB, hB] at this
        exact ⟨by simp only [p.1, h.temp, hT], this, rfl, rfl, rfl, rfl⟩
      · rw [if_neg hT]
        have := h
        rw [← h.theoryB, hB] at this
        exact ⟨by simp only [h.model.consts], this, rfl, rfl, rfl, rfl⟩
    | true =>
      simp only [Bool.not_true, Bool.false_eq_true, if_false, Fintype.sum_prod_type]
      by_cases hT : T = g.T
      · rw [if_pos hT]
        have := h.with_model x.2.1 x.2.2
        rw [← h.theoryB, hB] at this
        exact ⟨by simp only [x.1, h.temp, hT], this, rfl, rfl, rfl, rfl⟩
      · rw [if_neg hT]
        have := h
        rw [← h.theoryB, hB] at this
        exact ⟨by simp only [h.model.consts], this, rfl, rfl, rfl, rfl⟩

theorem cAt_ok (h : g.Ok L c tB tC) (k : Fin 4) (T : ℝ) (zs : Fin N → ℝ) :
    (g.cAt L k T zs).1 = specC L c tC k T zs ∧ (g.cAt L k T zs).2.Ok L c tB tC ∧ g.Same (g.cAt L k T zs).2 := by
  have p := getPureC_ok h.model
  have x := getCrossC_ok h.model
  by_cases hz : c.cModel = .zero
  · unfold Gas.cAt specC
    rw [if_pos (by rw [h.model.consts, hz]), hz]
    exact ⟨rfl, h, rfl, rfl, rfl, rfl⟩
  rw [specC_on L c hz]
  unfold Gas.cAt
  rw [if_neg (by rw [h.model.consts]; exact hz)]
  by_cases hN : N = 1
  · rw [dif_pos hN, if_pos hN, sum_one hN]
    by_cases hT : T = g.T
    · rw [if_pos hT]
      refine ⟨by rw [p.1, h.temp, hT], h.with_model p.2.1 p.2.2, rfl, rfl, rfl, rfl⟩
    · rw [if_neg hT]
      exact ⟨by rw [h.model.consts], h, rfl, rfl, rfl, rfl⟩
  · rw [dif_neg hN, if_neg hN, ← h.theoryC]
    cases hB : g.theoryC with
    | false =>
      simp only [Bool.not_false, if_true]
      by_cases hT : T = g.T
      · rw [if_pos hT]
        have := h.with_model p.2.1 p.2.2
        rw [← h.theoryC, hB] at this
        exact ⟨by simp only [p.1, h.temp, hT], this, rfl, rfl, rfl, rfl⟩
      · rw [if_neg hT]
        have := h
        rw [← h.theoryC, hB] at this
        exact ⟨by simp only [h.model.consts], this, rfl, rfl, rfl, rfl⟩
    | true =>
      simp only [Bool.not_true, Bool.false_eq_true, if_false]
      by_cases hT : T = g.T
      · rw [if_pos hT]
        have := h.with_model x.2.1 x.2.2
        rw [← h.theoryC, hB] at this
        exact ⟨by simp only [x.1, h.temp, hT], this, rfl, rfl, rfl, rfl⟩
      · rw [if_neg hT]
        have := h
        rw [← h.theoryC, hB] at this
        exact ⟨by simp only [h.model.consts], this, rfl, rfl, rfl, rfl⟩

theorem b_ok (h : g.Ok L c tB tC) (k : Fin 4) :
    (g.b L k).1 = specB L c tB k g.T g.zs ∧ (g.b L k).2.Ok L c tB tC ∧ g.Same (g.b L k).2 := by
  unfold Gas.b
  cases e : g.memoB k with
  | some v => exact ⟨h.memoB k v e, h, rfl, rfl, rfl, rfl⟩
  | none =>
    obtain ⟨h1, h2, h3, h4, h5, h6⟩ := bAt_ok h k g.T g.zs
    refine ⟨h1, ⟨h2.model, h2.temp, h2.theoryB, h2.theoryC, fun k' v hv => ?_, h2.memoC⟩, h3, h4, h5, h6⟩
    by_cases hk : k' = k
    · subst hk
      simp only [Function.update_self, Option.some.injEq] at hv
      rw [← hv, h1, h3, h6]
    · simp only [Function.update_of_ne hk] at hv
      exact h2.memoB k' v hv

theorem c_ok (h : g.Ok L c tB tC) (k : Fin 4) :
    (g.c L k).1 = specC L c tC k g.T g.zs ∧ (g.c L k).2.Ok L c tB tC ∧ g.Same (g.c L k).2 := by
  unfold Gas.c
  cases e : g.memoC k with
  | some v => exact ⟨h.memoC k v e, h, rfl, rfl, rfl, rfl⟩
  | none =>
    obtain ⟨h1, h2, h3, h4, h5, h6⟩ := cAt_ok h k g.T g.zs
    refine ⟨h1, ⟨h2.model, h2.temp, h2.theoryB, h2.theoryC, h2.memoB, fun k' v hv => ?_⟩, h3, h4, h5, h6⟩
    by_cases hk : k' = k
    · subst hk
      simp only [Function.update_self, Option.some.injEq] at hv
      rw [← hv, h1, h3, h6]
    · simp only [Function.update_of_ne hk] at hv
      exact h2.memoC k' v hv

theorem at_ok {m : Model N} (h : m.c = c) (T : ℝ) : (m.at' T).Ok L c :=
  ⟨h, fun _ hv => by simp [Model.at'] at hv, fun _ hv => by simp [Model.at'] at hv, fun _ hv => by simp [Model.at'] at hv,
    fun _ hv => by simp [Model.at'] at hv⟩

theorem fresh_ok {m : Model N} (h : m.c = c) (T P V : ℝ) (zs : Fin N → ℝ) :
    Gas.Ok L c tB tC { model := m.at' T, T := T, P := P, V := V, zs := zs, theoryB := tB, theoryC := tC } :=
  ⟨at_ok h T, rfl, rfl, rfl, fun _ _ hv => by simp at hv, fun _ _ hv => by simp at hv⟩

/-- A new state with the temperature, composition and one of pressure and volume given: the other follows. -/
theorem solved_ok {g : Gas N} (h : g.Ok L c tB tC) : ((g.b L 0).2.c L 0).2.Ok L c tB tC ∧ g.Same ((g.b L 0).2.c L 0).2 ∧
    (g.b L 0).1 = specB L c tB 0 g.T g.zs ∧ ((g.b L 0).2.c L 0).1 = specC L c tC 0 g.T g.zs := by
  obtain ⟨h1, h2, s1, s2, s3, s4⟩ := b_ok h 0
  obtain ⟨k1, k2, t1, t2, t3, t4⟩ := c_ok h2 0
  exact ⟨k2, ⟨t1.trans s1, t2.trans s2, t3.trans s3, t4.trans s4⟩, h1, by rw [k1, s1, s4]⟩

theorem Gas.Ok.with_PV (h : g.Ok L c tB tC) (P V : ℝ) : Gas.Ok L c tB tC { g with P := P, V := V } :=
  ⟨h.model, h.temp, h.theoryB, h.theoryC, h.memoB, h.memoC⟩

theorem toTP_ok (h : g.Ok L c tB tC) (T P : ℝ) (zs : Fin N → ℝ) :
    (g.toTP L E T P zs).Ok L c tB tC ∧ (g.toTP L E T P zs).T = T ∧ (g.toTP L E T P zs).P = P ∧ (g.toTP L E T P zs).zs = zs ∧
    (g.toTP L E T P zs).V = E.Z T P (specB L c tB 0 T zs) (specC L c tC 0 T zs) * E.R * T / P := by
  have f := fresh_ok (L := L) (tB := g.theoryB) (tC := g.theoryC) h.model.consts T P 0 zs
  obtain ⟨k, ⟨s1, s2, s3, s4⟩, b1, c1⟩ := solved_ok f
  rw [h.theoryB, h.theoryC] at k b1 c1 s1 s2 s4
  unfold Gas.toTP
  simp only [h.theoryB, h.theoryC]
  exact ⟨⟨k.model, k.temp, k.theoryB, k.theoryC, k.memoB, k.memoC⟩, s1, s2, s4, by rw [b1, c1]⟩

theorem toTV_ok (h : g.Ok L c tB tC) (T V : ℝ) (zs : Fin N → ℝ) :
    (g.toTV L E T V zs).Ok L c tB tC ∧ (g.toTV L E T V zs).T = T ∧ (g.toTV L E T V zs).V = V ∧ (g.toTV L E T V zs).zs = zs ∧
    (g.toTV L E T V zs).P = E.R * T * (V * V + V * specB L c tB 0 T zs + specC L c tC 0 T zs) / (V * V * V) := by
  have f := fresh_ok (L := L) (tB := g.theoryB) (tC := g.theoryC) h.model.consts T 0 V zs
  obtain ⟨k, ⟨s1, s2, s3, s4⟩, b1, c1⟩ := solved_ok f
  rw [h.theoryB, h.theoryC] at k b1 c1 s1 s3 s4
  unfold Gas.toTV
  simp only [h.theoryB, h.theoryC]
  exact ⟨⟨k.model, k.temp, k.theoryB, k.theoryC, k.memoB, k.memoC⟩, s1, s3, s4, by rw [b1, c1]⟩

theorem toPV_ok (h : g.Ok L c tB tC) (P V : ℝ) (zs : Fin N → ℝ) : (g.toPV E P V zs).Ok L c tB tC := by
  have f := fresh_ok (L := L) (tB := g.theoryB) (tC := g.theoryC) h.model.consts (E.newtonT g P V zs) P V zs
  rw [h.theoryB, h.theoryC] at f
  unfold Gas.toPV
  rw [h.theoryB, h.theoryC]
  exact f

theorem create_ok {m : Model N} (hm : m.c = c) (T P : ℝ) (zs : Fin N → ℝ) :
    (Gas.create L E m tB tC T P zs).Ok L c tB tC ∧ (Gas.create L E m tB tC T P zs).T = T ∧
    (Gas.create L E m tB tC T P zs).P = P ∧ (Gas.create L E m tB tC T P zs).zs = zs ∧
    (Gas.create L E m tB tC T P zs).V = E.Z T P (specB L c tB 0 T zs) (specC L c tC 0 T zs) * E.R * T / P := by
  have f := fresh_ok (L := L) (tB := tB) (tC := tC) hm T P 0 zs
  obtain ⟨k, ⟨s1, s2, s3, s4⟩, b1, c1⟩ := solved_ok f
  unfold Gas.create
  exact ⟨⟨k.model, k.temp, k.theoryB, k.theoryC, k.memoB, k.memoC⟩, s1, s2, s4, by simp only [b1, c1]⟩

theorem step_ok (h : g.Ok L c tB tC) (o : Gas.Op N) : (g.step L E o).Ok L c tB tC := by
  cases o with
  | toTP T P zs => exact (toTP_ok h T P zs).1
  | toTV T V zs => exact (toTV_ok h T V zs).1
  | toPV P V zs => exact toPV_ok h P V zs
  | askB k => exact (b_ok h k).2.1
  | askC k => exact (c_ok h k).2.1
  | askBAt k T zs => exact (bAt_ok h k T zs).2.1
  | askCAt k T zs => exact (cAt_ok h k T zs).2.1

/-- **C118.** From any coefficients object (with whatever it has cached, at whatever temperature), after any sequence of
state changes and queries, a gas reports the coefficients of its own temperature and composition, and the `_at` methods
those of the temperature and composition asked for; queries do not change the state. -/
theorem C118_state (m : Model N) (T P : ℝ) (zs : Fin N → ℝ) (ops : List (Gas.Op N)) :
    let g := ops.foldl (fun g o => g.step L E o) (Gas.create L E m tB tC T P zs)
    (∀ k, (g.b L k).1 = specB L m.c tB k g.T g.zs ∧ (g.c L k).1 = specC L m.c tC k g.T g.zs) ∧
    (∀ k T' zs', (g.bAt L k T' zs').1 = specB L m.c tB k T' zs' ∧ (g.cAt L k T' zs').1 = specC L m.c tC k T' zs') ∧
    (∀ k, g.Same (g.step L E (.askB k)) ∧ g.Same (g.step L E (.askC k))) ∧
    ∀ k T' zs', g.Same (g.step L E (.askBAt k T' zs')) ∧ g.Same (g.step L E (.askCAt k T' zs')) := by
  intro g
  have h : g.Ok L m.c tB tC := by
    have key : ∀ (l : List (Gas.Op N)) (g0 : Gas N), g0.Ok L m.c tB tC →
        (l.foldl (fun g o => g.step L E o) g0).Ok L m.c tB tC := by
      intro l
      induction l with
      | nil => exact fun _ h => h
      | cons o l ih => exact fun g0 h => ih _ (step_ok h o)
    exact key ops _ (create_ok rfl T P zs).1
  exact ⟨fun k => ⟨(b_ok h k).1, (c_ok h k).1⟩, fun k T' zs' => ⟨(bAt_ok h k T' zs').1, (cAt_ok h k T' zs').1⟩,
    fun k => ⟨(b_ok h k).2.2, (c_ok h k).2.2⟩, fun k T' zs' => ⟨(bAt_ok h k T' zs').2.2, (cAt_ok h k T' zs').2.2⟩⟩

/-- **C118.** After any history, a state set from temperature and volume satisfies the virial equation, and so does one set
from temperature and pressure whenever the compressibility factor found solves the density form. -/
theorem C118_state_equation (m : Model N) (T0 P0 : ℝ) (zs0 : Fin N → ℝ) (ops : List (Gas.Op N)) (T V P : ℝ) (zs : Fin N → ℝ)
    (hV : V ≠ 0) (hR : E.R ≠ 0) (hT : T ≠ 0) (hP : P ≠ 0) :
    let g := ops.foldl (fun g o => g.step L E o) (Gas.create L E m tB tC T0 P0 zs0)
    let B := specB L m.c tB 0 T zs
    let C := specC L m.c tC 0 T zs
    let rho := fun V : ℝ => 1 / V
    (let s := g.step L E (.toTV T V zs);
      s.T = T ∧ s.V = V ∧ s.zs = zs ∧ s.P = E.R * T * (rho V + B * rho V ^ 2 + C * rho V ^ 3)) ∧
    (let s := g.step L E (.toTP T P zs);
      s.T = T ∧ s.P = P ∧ s.zs = zs ∧ (∀ Z, Z = E.Z T P B C → Z ≠ 0 →
        Z = 1 + B * (P / (Z * E.R * T)) + C * (P / (Z * E.R * T)) ^ 2 →
        P = E.R * T * (rho s.V + B * rho s.V ^ 2 + C * rho s.V ^ 3))) := by
  intro g B C rho
  have h : g.Ok L m.c tB tC := by
    have key : ∀ (l : List (Gas.Op N)) (g0 : Gas N), g0.Ok L m.c tB tC →
        (l.foldl (fun g o => g.step L E o) g0).Ok L m.c tB tC := by
      intro l
      induction l with
      | nil => exact fun _ h => h
      | cons o l ih => exact fun g0 h => ih _ (step_ok h o)
    exact key ops _ (create_ok rfl T0 P0 zs0).1
  obtain ⟨-, a1, a2, a3, a4⟩ := toTV_ok (E := E) h T V zs
  obtain ⟨-, b1, b2, b3, b4⟩ := toTP_ok (E := E) h T P zs
  refine ⟨⟨a1, a2, a3, ?_⟩, b1, b2, b3, ?_⟩
  · simp only [Gas.step, rho, B, C]
    rw [a4]
    field_simp
  · intro Z hZ hZ0 hz
    simp only [Gas.step, rho]
    rw [b4]
    change P = E.R * T * (1 / (E.Z T P B C * E.R * T / P) + B * (1 / (E.Z T P B C * E.R * T / P)) ^ 2
      + C * (1 / (E.Z T P B C * E.R * T / P)) ^ 3)
    rw [← hZ]
    have e : 1 / (Z * E.R * T / P) = P / (Z * E.R * T) := by rw [one_div_div]
    rw [e]
    generalize hr : P / (Z * E.R * T) = r at hz
    have hr' : P = r * (Z * E.R * T) := by rw [← hr]; field_simp
    rw [hr']
    linear_combination E.R * T * r * hz

end States

/-! ## Mixing rules and their derivatives -/

section Derivatives
variable (L : Lib N) (c : Consts N) {z : Fin N → ℝ} {T : ℝ}

theorem pick (f : Fin N → ℝ) (m : Fin N) : ∑ i, (if i = m then (1 : ℝ) else 0) * f i = f m := by
  simp

theorem cubic_pd (t : Fin N → Fin N → Fin N → ℝ) (m : Fin N) : PD (cubic t) m z (dcubic t z m) := by
  have k := PD.sum (s := univ) fun i (_ : i ∈ univ) => PD.sum (s := univ) fun j (_ : j ∈ univ) =>
    PD.sum (s := univ) fun k (_ : k ∈ univ) =>
      (((PD.coord i m z).mul (PD.coord j m z)).mul (PD.coord k m z)).mul_const (t i j k)
  refine k.congr_d ?_
  have e : ∀ i j k : Fin N, (((if i = m then (1 : ℝ) else 0) * z j + z i * (if j = m then 1 else 0)) * z k
      + z i * z j * (if k = m then 1 else 0)) * t i j k
      = (if i = m then (1 : ℝ) else 0) * (z j * z k * t i j k) + (if j = m then (1 : ℝ) else 0) * (z i * z k * t i j k)
        + (if k = m then (1 : ℝ) else 0) * (z i * z j * t i j k) := fun i j k => by ring
  simp only [e, sum_add_distrib]
  have e1 : ∑ i, ∑ j, ∑ k, (if i = m then (1 : ℝ) else 0) * (z j * z k * t i j k) = ∑ j, ∑ k, z j * z k * t m j k := by
    simp only [← mul_sum]; exact pick _ m
  have e2 : ∑ i, ∑ j, ∑ k, (if j = m then (1 : ℝ) else 0) * (z i * z k * t i j k) = ∑ j, ∑ k, z j * z k * t j m k := by
    simp only [← mul_sum]; exact sum_congr rfl fun i _ => pick _ m
  have e3 : ∑ i, ∑ j, ∑ k, (if k = m then (1 : ℝ) else 0) * (z i * z j * t i j k) = ∑ j, ∑ k, z j * z k * t j k m := by
    exact sum_congr rfl fun i _ => sum_congr rfl fun j _ => pick _ m
  rw [e1, e2, e3]
  simp only [dcubic, mul_add, sum_add_distrib]

theorem dcubic_pd (t : Fin N → Fin N → Fin N → ℝ) (m n : Fin N) : PD (fun z => dcubic t z m) n z (d2cubic t z m n) := by
  have k := PD.sum (s := univ) fun j (_ : j ∈ univ) => PD.sum (s := univ) fun k (_ : k ∈ univ) =>
      ((PD.coord j n z).mul (PD.coord k n z)).mul_const (t m j k + t j m k + t j k m)
  refine k.congr_d ?_
  have e : ∀ j k : Fin N, ((if j = n then (1 : ℝ) else 0) * z k + z j * (if k = n then 1 else 0)) * (t m j k + t j m k + t j k m)
      = (if j = n then (1 : ℝ) else 0) * (z k * (t m j k + t j m k + t j k m))
        + (if k = n then (1 : ℝ) else 0) * (z j * (t m j k + t j m k + t j k m)) := fun j k => by ring
  simp only [e, sum_add_distrib]
  have e1 : ∑ j, ∑ k, (if j = n then (1 : ℝ) else 0) * (z k * (t m j k + t j m k + t j k m))
      = ∑ k, z k * (t m n k + t n m k + t n k m) := by
    simp only [← mul_sum]; exact pick _ n
  have e2 : ∑ j, ∑ k, (if k = n then (1 : ℝ) else 0) * (z j * (t m j k + t j m k + t j k m))
      = ∑ k, z k * (t m k n + t k m n + t k n m) := by
    exact sum_congr rfl fun j _ => pick _ n
  rw [e1, e2, d2cubic, ← sum_add_distrib]
  exact sum_congr rfl fun k _ => by ring

theorem d2cubic_pd (t : Fin N → Fin N → Fin N → ℝ) (m n o : Fin N) :
    PD (fun z => d2cubic t z m n) o z (d3cubic t m n o) := by
  unfold d2cubic
  refine (PD.linear _ o z).congr_d ?_
  simp only [d3cubic]

theorem tri_deriv {C : ℝ → Fin N → Fin N → ℝ} {dC : Fin N → Fin N → ℝ} (h : ∀ i j, HasDerivAt (fun T => C T i j) (dC i j) T)
    (h0 : ∀ i j, C T i j ≠ 0) (i j k : Fin N) : HasDerivAt (fun T => tri (C T) i j k) (dtri (C T) dC i j k) T := by
  have p := ((h i j).fun_mul (h i k)).fun_mul (h j k)
  have q := (cbrt_deriv (mul_ne_zero (mul_ne_zero (h0 i j) (h0 i k)) (h0 j k))).comp T p
  refine q.congr_deriv ?_
  simp only [dtri, tri]
  ring

/-- **C118.** Second coefficient: the reported temperature derivatives and, for at least two components, the first, second
and third composition derivatives (of the coefficient, `k = 0`, and of its temperature derivatives) are derivatives of the
reported values; the mole number versions are the derivatives of the molar and of the extensive coefficient. -/
theorem C118_B_derivatives (theory : Bool)
    (h1 : ∀ (k : Fin 3) i, HasDerivAt (fun T => c.bPure L T k.castSucc i) (c.bPure L T k.succ i) T)
    (h2 : ∀ (k : Fin 3) i j, HasDerivAt (fun T => c.bInter L T k.castSucc i j) (c.bInter L T k.succ i j) T) :
    (∀ k : Fin 3, HasDerivAt (fun T => specB L c theory k.castSucc T z) (specB L c theory k.succ T z) T) ∧
    (N ≠ 1 → ∀ k, (∀ i, PD (fun z => specB L c theory k T z) i z (dBdzs L c theory T k z i)) ∧
      (∀ i j, PD (fun z => dBdzs L c theory T k z i) j z (d2Bdzizjs L c theory T k i j)) ∧
      (∀ i j l, PD (fun _ => d2Bdzizjs L c theory T k i j) l z (d3Bdzizjzks i j l)) ∧
      (∑ i, z i = 1 → ∀ i,
        PD (fun n => specB L c theory k T fun a => n a / ∑ b, n b) i z (dns (dBdzs L c theory T k z) z i) ∧
        PD (extensive (specB L c theory k T)) i z (dnns (dBdzs L c theory T k z) z (specB L c theory k T z) i))) := by
  have pB : ∀ (hN : N ≠ 1) (k : Fin 4) i, PD (fun z => specB L c theory k T z) i z (dBdzs L c theory T k z i) := by
    intro hN k i
    have := (C67_mixing theory (fun _ => c.bPure L T k) (fun _ _ => 0) (fun _ => c.bInter L T k) (fun _ _ _ => 0) z (T := T)
      (fun i => hasDerivAt_const _ _) (fun i j => hasDerivAt_const _ _)).2 hN i
    unfold B_mix at this
    unfold specB dBdzs
    simp only [dif_neg hN, if_neg hN, dB_dzs] at this ⊢
    cases theory with
    | true => simpa only [Fintype.sum_prod_type, if_true, Bool.not_true, Bool.false_eq_true, if_false] using this
    | false => simpa only [Bool.false_eq_true, if_false, Bool.not_false, if_true] using this
  refine ⟨fun k => ?_, fun hN k => ⟨fun i => pB hN k i, fun i j => ?_, fun i j l => PD.const _, fun hs i => ?_⟩⟩
  · unfold specB
    by_cases hN : N = 1
    · simp only [if_pos hN]
      exact HasDerivAt.fun_sum fun i _ => h1 k i
    · simp only [if_neg hN]
      cases theory with
      | true => exact HasDerivAt.fun_sum fun p _ => (h2 k p.1 p.2).const_mul _
      | false => exact HasDerivAt.fun_sum fun i _ => (h1 k i).const_mul _
  · unfold dBdzs d2Bdzizjs
    cases theory with
    | true => exact PD.linear _ _ _
    | false => exact PD.const _
  · have hF : Differentiable ℝ (specB L c theory k T) := by
      unfold specB
      simp only [if_neg hN]
      cases theory <;> fun_prop
    have hx : (fun a => z a / ∑ b, z b) = z := by funext a; rw [hs, div_one]
    have q := GibbsExcess.pd_fraction (F := specB L c theory k T) (n := z) (by rw [hs]; norm_num)
      (g := dBdzs L c theory T k z) (by rw [hx]; exact hF z) (by rw [hx]; exact fun j => pB hN k j) i
    have q' : PD (fun n => specB L c theory k T fun a => n a / ∑ b, n b) i z (dns (dBdzs L c theory T k z) z i) := by
      refine q.congr_d ?_
      simp only [dns, dxsToDns, hs]
      simp
    refine ⟨q', ?_⟩
    have tot : PD (fun n : Fin N → ℝ => ∑ b, n b) i z 1 := by
      simpa using PD.linear (fun _ => (1 : ℝ)) i z
    refine (tot.mul q').congr_d ?_
    simp only [hx, hs, dns, dnns, dxsToDns, dxsToDnPartials]
    ring

/-- **C118.** Third coefficient: where the interaction coefficients do not vanish, its reported slope with the temperature,
and for at least two components its first, second and third composition derivatives and the mixed derivative, are
derivatives of the reported values; the mole number versions are the derivatives of the molar and of the extensive
coefficient. -/
theorem C118_C_derivatives (theory : Bool) (h0 : c.cModel ≠ .zero → ∀ i j, c.cInter L T 0 i j ≠ 0)
    (h1 : ∀ i, HasDerivAt (fun T => c.cPure L T 0 i) (c.cPure L T 1 i) T)
    (h2 : ∀ i j, HasDerivAt (fun T => c.cInter L T 0 i j) (c.cInter L T 1 i j) T) :
    HasDerivAt (fun T => specC L c theory 0 T z) (specC L c theory 1 T z) T ∧
    (N ≠ 1 → (∀ i, PD (fun z => specC L c theory 0 T z) i z (dCdzs L c theory T 0 z i)) ∧
      (∀ i, PD (fun z => specC L c theory 1 T z) i z (dCdzs L c theory T 1 z i)) ∧
      (∀ i, HasDerivAt (fun T => dCdzs L c theory T 0 z i) (dCdzs L c theory T 1 z i) T) ∧
      (∀ i j, PD (fun z => dCdzs L c theory T 0 z i) j z (d2Cdzizjs L c theory T z i j)) ∧
      (∀ i j k, PD (fun z => d2Cdzizjs L c theory T z i j) k z (d3Cdzizjzks L c theory T i j k)) ∧
      (∑ i, z i = 1 → ∀ i,
        PD (fun n => specC L c theory 0 T fun a => n a / ∑ b, n b) i z (dns (dCdzs L c theory T 0 z) z i) ∧
        PD (extensive (specC L c theory 0 T)) i z (dnns (dCdzs L c theory T 0 z) z (specC L c theory 0 T z) i))) := by
  have conv : (Differentiable ℝ (specC L c theory 0 T)) →
      (∀ i, PD (fun z => specC L c theory 0 T z) i z (dCdzs L c theory T 0 z i)) → ∑ i, z i = 1 → ∀ i,
        PD (fun n => specC L c theory 0 T fun a => n a / ∑ b, n b) i z (dns (dCdzs L c theory T 0 z) z i) ∧
        PD (extensive (specC L c theory 0 T)) i z (dnns (dCdzs L c theory T 0 z) z (specC L c theory 0 T z) i) := by
    intro hF hd hs i
    have hx : (fun a => z a / ∑ b, z b) = z := by funext a; rw [hs, div_one]
    have q := GibbsExcess.pd_fraction (F := specC L c theory 0 T) (n := z) (by rw [hs]; norm_num)
      (g := dCdzs L c theory T 0 z) (by rw [hx]; exact hF z) (by rw [hx]; exact fun j => hd j) i
    have q' : PD (fun n => specC L c theory 0 T fun a => n a / ∑ b, n b) i z (dns (dCdzs L c theory T 0 z) z i) := by
      refine q.congr_d ?_
      simp only [dns, dxsToDns, hs]
      simp
    refine ⟨q', ?_⟩
    have tot : PD (fun n : Fin N → ℝ => ∑ b, n b) i z 1 := by
      simpa using PD.linear (fun _ => (1 : ℝ)) i z
    refine (tot.mul q').congr_d ?_
    simp only [hx, hs, dns, dnns, dxsToDns, dxsToDnPartials]
    ring
  by_cases hz : c.cModel = .zero
  · have e : ∀ k T z, specC L c theory k T z = 0 := fun k T z => by simp only [specC, hz]
    have e1 : ∀ k T z i, dCdzs L c theory T k z i = 0 := fun k T z i => by
      simp only [dCdzs, hz, Consts.cPure, if_true, ite_self]
    have e2 : ∀ z i j, d2Cdzizjs L c theory T z i j = 0 := fun z i j => by simp only [d2Cdzizjs, hz, if_true, ite_self]
    have e3 : ∀ i j k, d3Cdzizjzks L c theory T i j k = 0 := fun i j k => by simp only [d3Cdzizjzks, hz, if_true, ite_self]
    have cc : specC L c theory 0 T = fun _ => 0 := funext fun z => e 0 T z
    refine ⟨by simp only [e]; exact hasDerivAt_const _ _, fun _ => ⟨?_, ?_, ?_, ?_, ?_, conv ?_ ?_⟩⟩
    · intro i; simp only [e, e1]; exact PD.const _
    · intro i; simp only [e, e1]; exact PD.const _
    · intro i; simp only [e1]; exact hasDerivAt_const _ _
    · intro i j; simp only [e1, e2]; exact PD.const _
    · intro i j k; simp only [e2, e3]; exact PD.const _
    · rw [cc]; exact differentiable_const _
    · intro i; simp only [e, e1]; exact PD.const _
  have td := tri_deriv (T := T) (C := fun T => c.cInter L T 0) h2 (h0 hz)
  by_cases hN : N = 1
  · refine ⟨?_, fun h => absurd hN h⟩
    simp only [specC_on L c hz, if_pos hN]
    exact HasDerivAt.fun_sum fun i _ => h1 i
  cases theory with
  | false =>
    have e' : ∀ k T z, specC L c false k T z = ∑ i, z i * c.cPure L T k i := fun k T z => by rw [specC_on L c hz, if_neg hN]
    have d' : ∀ (k : Fin 2) T z i, dCdzs L c false T k z i = c.cPure L T (k.castLE (by omega)) i := fun k T z i => by
      simp only [dCdzs, Bool.not_false, if_true]
    have p : ∀ i, PD (fun z => specC L c false 0 T z) i z (dCdzs L c false T 0 z i) := fun i => by
      simp only [e', d']; exact PD.linear _ _ _
    refine ⟨?_, fun _ => ⟨p, fun i => ?_, fun i => ?_, fun i j => ?_, fun i j k => PD.const _, conv ?_ p⟩⟩
    · simp only [e']; exact HasDerivAt.fun_sum fun i _ => (h1 i).const_mul _
    · simp only [e', d']; exact PD.linear _ _ _
    · simp only [d']; exact h1 i
    · simp only [d']; exact PD.const _
    · have : specC L c false 0 T = fun z => ∑ i, z i * c.cPure L T 0 i := funext fun z => e' 0 T z
      rw [this]; fun_prop
  | true =>
    have e0 : ∀ T z, specC L c true 0 T z = cubic (tri (c.cInter L T 0)) z := fun T z => by rw [specC_on L c hz, if_neg hN]; rfl
    have e1 : ∀ T z, specC L c true 1 T z = cubic (dtri (c.cInter L T 0) (c.cInter L T 1)) z := fun T z => by
      rw [specC_on L c hz, if_neg hN]; rfl
    have d0 : ∀ T z i, dCdzs L c true T 0 z i = dcubic (tri (c.cInter L T 0)) z i := fun T z i => by
      simp only [dCdzs, Bool.not_true, Bool.false_eq_true, if_false, if_neg hz, if_true]
    have d1 : ∀ T z i, dCdzs L c true T 1 z i = dcubic (dtri (c.cInter L T 0) (c.cInter L T 1)) z i := fun T z i => by
      simp only [dCdzs, Bool.not_true, Bool.false_eq_true, if_false, if_neg hz, one_ne_zero]
    have d2 : ∀ z i j, d2Cdzizjs L c true T z i j = d2cubic (tri (c.cInter L T 0)) z i j := fun z i j => by
      simp only [d2Cdzizjs, Bool.not_true, Bool.false_eq_true, if_false, if_neg hz]
    have d3 : ∀ i j k, d3Cdzizjzks L c true T i j k = d3cubic (tri (c.cInter L T 0)) i j k := fun i j k => by
      simp only [d3Cdzizjzks, Bool.not_true, Bool.false_eq_true, if_false, if_neg hz]
    have p : ∀ i, PD (fun z => specC L c true 0 T z) i z (dCdzs L c true T 0 z i) := fun i => by
      simp only [e0, d0]; exact cubic_pd _ i
    refine ⟨?_, fun _ => ⟨p, fun i => ?_, fun i => ?_, fun i j => ?_, fun i j k => ?_, conv ?_ p⟩⟩
    · simp only [e0, e1, cubic]
      exact HasDerivAt.fun_sum fun i _ => HasDerivAt.fun_sum fun j _ => HasDerivAt.fun_sum fun k _ => (td i j k).const_mul _
    · simp only [e1, d1]; exact cubic_pd _ i
    · simp only [d0, d1, dcubic]
      exact HasDerivAt.fun_sum fun j _ => HasDerivAt.fun_sum fun k _ =>
        (((td i j k).fun_add (td j i k)).fun_add (td j k i)).const_mul _
    · simp only [d0, d2]; exact dcubic_pd _ i j
    · simp only [d2, d3]; exact d2cubic_pd _ i j k
    · have : specC L c true 0 T = fun z => cubic (tri (c.cInter L T 0)) z := funext fun z => e0 T z
      rw [this]; unfold cubic; fun_prop

/-- **C118.** With both correlations off every coefficient and every derivative is zero, the gas is ideal, and the
shortcuts of `d2T_dV2` and `d2V_dT2` (2717-2732) return the second derivatives of `T = P V / R` and `V = R T / P`. -/
theorem C118_ideal (theory : Bool) (hB : c.bModel = .zero) (hC : c.cModel = .zero) {R P V : ℝ} (hR : R ≠ 0) (hP : P ≠ 0) :
    (∀ k T z, specB L c theory k T z = 0 ∧ specC L c theory k T z = 0) ∧
    (∀ k T z i, dBdzs L c theory T k z i = 0) ∧ (∀ k T z i, dCdzs L c theory T k z i = 0) ∧
    HasDerivAt (deriv fun V => P * V / R) 0 V ∧ HasDerivAt (deriv fun T => R * T / P) 0 T := by
  have hb : ∀ T k i, c.bPure L T k i = 0 := fun T k i => by simp only [Consts.bPure, hB]
  have hi : ∀ T k i j, c.bInter L T k i j = 0 := fun T k i j => by simp only [Consts.bInter, hB]
  refine ⟨fun k T z => ⟨?_, by simp only [specC, hC]⟩, fun k T z i => ?_, fun k T z i => ?_, ?_, ?_⟩
  · unfold specB
    simp only [hb, hi]
    cases theory <;> simp
  · simp [dBdzs, hb, hi]
  · simp only [dCdzs, hC, Consts.cPure, if_true, ite_self]
  · have : deriv (fun V => P * V / R) = fun _ => P / R := by
      funext V; simp [deriv_div_const]
    rw [this]; exact hasDerivAt_const _ _
  · have : deriv (fun T => R * T / P) = fun _ => R / P := by
      funext V; simp [deriv_div_const]
    rw [this]; exact hasDerivAt_const _ _

end Derivatives

/-! ## What does not hold -/

/-- The correlation of Pitzer and Curl (`chemicals.virial.BVirial_Pitzer_Curl`), value only. -/
noncomputable def pitzerCurl (T Tc Pc omega : ℝ) : ℝ :=
  let Tr := T / Tc
  let B0 := 1445 / 10000 - 33 / 100 / Tr - 1385 / 10000 / Tr ^ 2 - 121 / 10000 / Tr ^ 3
  let B1 := 73 / 1000 + 46 / 100 / Tr - 5 / 10 / Tr ^ 2 - 97 / 1000 / Tr ^ 3 - 73 / 10000 / Tr ^ 8
  (8314 / 1000) * Tc / Pc * (B0 + omega * B1)

/-- A library with that correlation. -/
noncomputable def demoLib (N : ℕ) : Lib N where
  pitzerCurl T Tc Pc omega k := if k = 0 then pitzerCurl T Tc Pc omega else 0
  abbott _ _ _ _ _ := 0
  tsonopoulos _ _ _ _ _ := 0
  oconnell _ _ _ _ _ := 0
  orbeyVera T Tc Pc _ k := ![T * Tc / Pc, Tc / Pc, 0, 0] k
  tsonopoulosExt _ _ _ _ _ _ _ := 0
  xiang _ _ _ _ _ _ := 0
  liuXiang _ _ _ _ _ _ := 0
  meng _ _ _ _ _ _ _ := 0
  op2 _ _ := 0
  op3 _ _ := 0

/-- `N` components with equal critical properties. -/
def demoConsts (N : ℕ) : Consts N where
  Tcs _ := 400
  Pcs _ := 1000000
  Vcs _ := 1
  omegas _ := 0
  kijs _ _ := 0
  mengA _ _ := 0
  tsA _ _ := 0
  tsB _ _ := 0
  bModel := .pitzerCurl
  cModel := .orbeyVera
  crossB := .tarakadDanner
  crossC := .tarakadDanner

theorem demo_params (N : ℕ) (i j : Fin N) : (demoConsts N).Tcij i j = 400 ∧ (demoConsts N).Pcij i j = 1000000 ∧
    (demoConsts N).omegaij i j = 0 := by
  have hk : (demoConsts N).kijs i i = 0 := rfl
  obtain ⟨⟨h1, h2, -, h4⟩, -⟩ := C118_diagonal (demoLib N) (demoConsts N) (i := i) (by norm_num [demoConsts])
    (by norm_num [demoConsts]) hk
  exact ⟨h1, h2, h4⟩

/-- **C118 (fails).** `cross_B_model='Zeros'` and `cross_C_model='Zeros'` are documented as using no cross parameters, but
the settings are only stored: every interaction coefficient is the same as with the rule of Tarakad and Danner, and the
cross coefficients are not zero. -/
theorem C118_cross_model_fails :
    (∀ (N : ℕ) (L : Lib N) (c : Consts N) (x y : CrossModel) T k i j,
      ({ c with crossB := x, crossC := y } : Consts N).bInter L T k i j = c.bInter L T k i j ∧
      ({ c with crossB := x, crossC := y } : Consts N).cInter L T k i j = c.cInter L T k i j) ∧
    ∃ (L : Lib 2) (c : Consts 2), c.crossB = .zeros ∧ c.crossC = .zeros ∧ c.bInter L 400 0 0 1 ≠ 0 ∧
      c.cInter L 400 0 0 1 ≠ 0 := by
  refine ⟨fun N L c x y T k i j => ⟨rfl, rfl⟩, demoLib 2,
    { demoConsts 2 with crossB := .zeros, crossC := .zeros }, rfl, rfl, ?_, ?_⟩
  · change (demoConsts 2).bInter (demoLib 2) 400 0 0 1 ≠ 0
    obtain ⟨h1, h2, h3⟩ := demo_params 2 0 1
    simp only [Consts.bInter, demoConsts, demoLib] at h1 h2 h3 ⊢
    rw [h1, h2, h3]
    norm_num [pitzerCurl]
  · change (demoConsts 2).cInter (demoLib 2) 400 0 0 1 ≠ 0
    obtain ⟨h1, h2, h3⟩ := demo_params 2 0 1
    simp only [Consts.cInter, demoConsts, demoLib] at h1 h2 h3 ⊢
    rw [h1, h2]
    norm_num

/-- **C118 (fails).** The constructor accepts interaction parameters of a component with itself; then a mixture of which
only that component is present has another second coefficient than the component. -/
theorem C118_self_interaction_fails : ∃ (L : Lib 2) (c : Consts 2) (i : Fin 2) (T : ℝ), 0 < c.Tcs i ∧ 0 < c.Vcs i ∧
    specB L c true 0 T (Pi.single i 1) ≠ c.bPure L T 0 i ∧ specB L c false 0 T (Pi.single i 1) = c.bPure L T 0 i := by
  refine ⟨demoLib 2, { demoConsts 2 with kijs := fun _ _ => 1 / 2 }, 0, 400, by norm_num [demoConsts],
    by norm_num [demoConsts], ?_, ?_⟩
  · have s : √((400 : ℝ) * 400) = 400 := Real.sqrt_mul_self (by norm_num)
    simp only [specB, Fintype.sum_prod_type, Fin.sum_univ_two, Consts.bInter, Consts.bPure, Consts.Pcij, Consts.Tcij,
      Consts.omegaij, demoConsts, demoLib, s, Real.one_rpow, pitzerCurl]
    norm_num
  · simp [specB, Fin.sum_univ_two]

/-- **C118 (fails).** For one component with the statistical mixing rule the coefficient reported does not depend on the
composition, but the composition derivative reported is `2 z B`. The mole number derivatives are right nevertheless. -/
theorem C118_single_component_fails (L : Lib 1) (c : Consts 1) {T : ℝ} (hT : 0 < c.Tcs 0) (hV : 0 < c.Vcs 0)
    (hk : c.kijs 0 0 = 0) (k : Fin 4) (z : Fin 1 → ℝ) :
    PD (fun z => specB L c true k T z) 0 z 0 ∧ dBdzs L c true T k z 0 = 2 * z 0 * specB L c true k T z ∧
    (z 0 = 1 → dns (dBdzs L c true T k z) z 0 = 0 ∧
      dnns (dBdzs L c true T k z) z (specB L c true k T z) 0 = specB L c true k T z) := by
  obtain ⟨-, h, -⟩ := C118_diagonal L c hT hV hk
  have e : ∀ z, specB L c true k T z = c.bPure L T k 0 := fun z => by simp [specB]
  have d : dBdzs L c true T k z 0 = 2 * z 0 * specB L c true k T z := by
    rw [e]; simp [dBdzs, h]; ring
  refine ⟨by simp only [e]; exact PD.const _, d, fun h1 => ⟨?_, ?_⟩⟩
  · simp [dns, dxsToDns, d, h1]
  · simp [dnns, dxsToDnPartials, d, h1]

/-! ## Examples -/

example := C118_symmetric (demoLib 3) (demoConsts 3) (fun _ _ => rfl) (fun _ _ => rfl) (fun _ _ => rfl) (fun _ _ => rfl) 300 0 1 2
example := C118_diagonal (demoLib 3) (demoConsts 3) (i := 1) (by norm_num [demoConsts]) (by norm_num [demoConsts]) rfl
example := C118_pure_limit (demoLib 3) (demoConsts 3) (by norm_num) (i := 1) (by norm_num [demoConsts])
  (by norm_num [demoConsts]) rfl true 300

/-- The slope of the third coefficient of a component is covered. -/
example : (demoConsts 3).cPure (demoLib 3) 300 0 1 ≠ 0 := by norm_num [Consts.cPure, demoConsts, demoLib]

/-- A gas whose coefficients object comes from another temperature with everything cached, taken through three states. -/
example (E : Gas.Env 2) := C118_state (L := demoLib 2) (E := E) (tB := true) (tC := false)
  (m := { c := demoConsts 2, T := 500, pureB := some fun _ _ => 7, crossC := some fun _ _ _ => 8 }) 300 100000 ![1 / 4, 3 / 4]
  [.askB 0, .toTP 320 100000 ![1 / 2, 1 / 2], .askC 1, .toPV 100000 (1 / 40) ![1, 0], .askB 0]

example := C118_state_equation (L := demoLib 2) (E := ⟨8, fun _ _ _ _ => 1, fun _ _ _ _ => 300⟩) (tB := true) (tC := true)
  ⟨demoConsts 2, 500, none, none, none, none⟩ 300 100000 ![1 / 4, 3 / 4] [.askB 0] 320 (1 / 40) 100000 ![1 / 2, 1 / 2]
  (by norm_num) (by norm_num) (by norm_num) (by norm_num)

/-- Constants with the third coefficient only. -/
def cOnly (N : ℕ) : Consts N := { demoConsts N with bModel := .zero }

theorem cOnly_inter (N : ℕ) (T : ℝ) (i j : Fin N) : (cOnly N).cInter (demoLib N) T 0 i j = T * 400 / 1000000 ∧
    (cOnly N).cInter (demoLib N) T 1 i j = 400 / 1000000 := by
  obtain ⟨h1, h2, h3⟩ := demo_params N i j
  constructor
  · change T * (demoConsts N).Tcij i j / (demoConsts N).Pcij i j = _
    rw [h1, h2]
  · change (demoConsts N).Tcij i j / (demoConsts N).Pcij i j = _
    rw [h1, h2]

example := C118_C_derivatives (demoLib 2) (cOnly 2) (z := ![1 / 4, 3 / 4]) (T := 300) true
  (fun _ i j => by rw [(cOnly_inter 2 300 i j).1]; norm_num)
  (fun i => by
    change HasDerivAt (fun T : ℝ => T * 400 / 1000000) (400 / 1000000) 300
    simpa using ((hasDerivAt_id (300 : ℝ)).mul_const 400).div_const 1000000)
  (fun i j => by
    simp only [cOnly_inter]
    simpa using ((hasDerivAt_id (300 : ℝ)).mul_const 400).div_const 1000000)

/-- Constants with a second coefficient linear in the temperature. -/
noncomputable def linLib (N : ℕ) : Lib N := { demoLib N with abbott := fun T Tc Pc _ k => ![T * Tc / Pc, Tc / Pc, 0, 0] k }

example := (C118_B_derivatives (linLib 2) { demoConsts 2 with bModel := .abbott } (z := ![1 / 4, 3 / 4]) (T := 300) true
  (fun k i => by
    fin_cases k
    · change HasDerivAt (fun T : ℝ => T * 400 / 1000000) (400 / 1000000) 300
      simpa using ((hasDerivAt_id (300 : ℝ)).mul_const 400).div_const 1000000
    · exact hasDerivAt_const _ _
    · exact hasDerivAt_const _ _)
  (fun k i j => by
    fin_cases k
    · change HasDerivAt (fun T : ℝ => T * (demoConsts 2).Tcij i j / (demoConsts 2).Pcij i j)
        ((demoConsts 2).Tcij i j / (demoConsts 2).Pcij i j) 300
      simpa using ((hasDerivAt_id (300 : ℝ)).mul_const ((demoConsts 2).Tcij i j)).div_const ((demoConsts 2).Pcij i j)
    · exact hasDerivAt_const _ _
    · exact hasDerivAt_const _ _)).2 (by norm_num)

example := C118_ideal (demoLib 2) { demoConsts 2 with bModel := .zero, cModel := .zero } (T := 300) true rfl rfl
  (R := 8) (P := 100000) (V := 1 / 40) (by norm_num) (by norm_num)

example := C118_single_component_fails (demoLib 1) (demoConsts 1) (T := 300) (by norm_num [demoConsts])
  (by norm_num [demoConsts]) rfl 0 ![1]

end Verif.Phase.VirialMix
