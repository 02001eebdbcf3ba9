import Mathlib.Algebra.BigOperators.Fin
import Mathlib.Algebra.BigOperators.Field
import Mathlib.Data.Real.Sqrt
import Mathlib.Tactic

/-!
# C133: constructors of the cubic equations of state of mixtures

`thermo/eos_mix.py`: the constructors and `_fast_init_specific` of `IGMIX` (6263-6297), `RKMIX` (6518-6565), `PRMIX` (6864-6918),
`PRMIXTranslated` (7903-7980), `PRMIXTranslatedPPJP` (8306-8367), `PRMIXTranslatedConsistent` (8478-8565), `SRKMIX` (8666-8712),
`SRKMIXTranslated` (9035-9113), `SRKMIXTranslatedConsistent` (9450-9537), `MSRKMIXTranslated` (9660-9706), `PR78MIX` (9972-10020), `VDWMIX`
(10105-10144), `PRSVMIX` (10572-10653), `PRSV2MIX` (10818-10917), `TWUPRMIX` (11073-11124), `TWUSRKMIX` (11229-11277), `APISRKMIX`
(11374-11436); `GCEOSMIX.subset` (391-407), `_custom_from_json` (438-439), the rebuilding calls `to_TP_zs` and its relatives (597, 645, 699,
703, 767, 800), `to_TPV_pure` (845-851).
`thermo/eos.py`: the constructors of `IG` (7217-7226), `PR` (7482-7494), `PR78` (8058-8075), `PRTranslated` (8139-8170), `PRTranslatedPPJP`
(8237-8256), `PRTranslatedConsistent` (8502-8535), `PRSV` (8626-8653), `PRSV2` (8885-8910), `VDW` (9186-9196), `RK` (9498-9508), `SRK`
(9828-9840), `SRKTranslated` (10115-10146), `MSRKTranslated` (10241-10272), `SRKTranslatedConsistent` (10496-10529), `APISRK`
(10597-10620), `TWUPR` (10807-10820), `TWUSRK` (10901-10913), `check_sufficient_inputs` (1094-1101), the specification checks of `solve`
(1112-1149).

An object is the parameters the constructor computes before `solve`, with the stored keyword arguments. `none` is an exception. The
estimate of the two coefficients of `MSRKTranslated` is a function of the environment (its formula is C36). Numbers are real; the list
branches are modelled (for arrays and mixed containers see `Containers`). The temperature found from pressure and
volume is an input. `PSRK` is C129.
-/

namespace Verif.MixConstruct

open Finset

/-- The classes. -/
inductive Kind
  | ig | rk | pr | prT | prPPJP | prCons | srk | srkT | srkCons | msrk | pr78 | vdw | prsv | prsv2 | twuPR | twuSRK | api
  deriving DecidableEq, Repr

/-- The universal gas constant. -/
noncomputable def R : ℝ := 8.31446261815324

/-- The class attribute `c1` (eos.py 7418, 9143, 9449, 9773). -/
noncomputable def c1 : Kind → ℝ
  | .ig => 0
  | .vdw => 27 / 64
  | .rk | .srk | .srkT | .srkCons | .msrk | .twuSRK | .api => 0.4274802335403414043909906940611707345513
  | .pr | .prT | .prPPJP | .prCons | .pr78 | .prsv | .prsv2 | .twuPR => 0.4572355289213821893834601962251837888504

/-- The class attribute `c2` (eos.py 7423, 9144, 9451, 9777). -/
noncomputable def c2 : Kind → ℝ
  | .ig => 0
  | .vdw => 1 / 8
  | .rk | .srk | .srkT | .srkCons | .msrk | .twuSRK | .api => 0.08664034996495772158907020242607611685675
  | .pr | .prT | .prPPJP | .prCons | .pr78 | .prsv | .prsv2 | .twuPR => 0.0777960739038884559718447100373331839711

/-- The numbers the attraction function of a component reads besides `Tc` and `a`. -/
inductive Shape
  /-- nothing (ideal gas, van der Waals, Redlich-Kwong) -/
  | nothing
  /-- `kappa` -/
  | kappa (k : ℝ)
  /-- `m` -/
  | m (m : ℝ)
  /-- `alpha_coeffs` -/
  | alpha (l : List ℝ)
  /-- `kappa0`, `kappa1` -/
  | prsv (k0 k1 : ℝ)
  /-- `kappa0`, `kappa1`, `kappa2`, `kappa3` -/
  | prsv2 (k0 k1 k2 k3 : ℝ)
  /-- `S1`, `S2` -/
  | api (s1 s2 : ℝ)
  /-- `omega` -/
  | acentric (w : ℝ)

/-- What a constructor is given about one component. -/
structure Comp where
  /-- `Tc` -/
  Tc : ℝ
  /-- `Pc` -/
  Pc : ℝ
  /-- `omega` -/
  omega : Option ℝ
  /-- `c` -/
  c : Option ℝ
  /-- `alpha_coeffs` -/
  alpha : Option (List ℝ)
  /-- `kappa1` -/
  k1 : Option ℝ
  /-- `kappa2` -/
  k2 : Option ℝ
  /-- `kappa3` -/
  k3 : Option ℝ
  /-- `S1` -/
  S1 : Option ℝ
  /-- `S2` -/
  S2 : Option ℝ

/-- The acentric factor where one is required. -/
noncomputable def Comp.w (a : Comp) : ℝ := a.omega.getD 0

/-- What does not belong to an object: the estimate of the coefficients of `MSRKTranslated` (eos.py 10275-10321) and the class attribute
`kappa1_Tr_limit` (eos.py 8624). -/
structure Env where
  /-- `estimate_MN` -/
  est : ℝ → ℝ → ℝ → ℝ → List ℝ
  /-- `kappa1_Tr_limit` -/
  limit : Bool

/-- How the temperature was obtained. -/
structure State where
  /-- `T` -/
  T : ℝ
  /-- given were pressure and volume -/
  pv : Bool

/-- `min(max(omega, -0.01), hi)`. -/
noncomputable def clamp (hi w : ℝ) : ℝ := min (max w (-0.01)) hi

/-! ## Pure components -/

/-- A pure object. -/
structure Pure where
  /-- `a` -/
  a : ℝ
  /-- `b` -/
  b : ℝ
  /-- `delta` -/
  delta : ℝ
  /-- `epsilon` -/
  epsilon : ℝ
  /-- parameters of the attraction function -/
  shape : Shape

/-- `kappa` of `PR78` (eos.py 8070-8073). -/
noncomputable def kappa78 (w : ℝ) : ℝ :=
  if w ≤ 0.491 then 0.37464 + w * (1.54226 - 0.26992 * w) else w * (w * (0.016666 * w - 0.164423) + 1.48503) + 0.379642

/-- The volume translation of a pure object: 0 by default (eos.py 8139, 8237, 10115, 10241), or from the acentric factor (8515-8516,
10509-10510). -/
noncomputable def pureC (k : Kind) (a : Comp) : ℝ :=
  match k with
  | .prT | .prPPJP | .srkT | .msrk => a.c.getD 0
  | .prCons => a.c.getD (R * a.Tc * (1 / a.Pc) * (0.0198 * clamp 1.48 a.w - 0.0065))
  | .srkCons => a.c.getD (R * a.Tc * (1 / a.Pc) * (0.0172 * clamp 1.46 a.w + 0.0096))
  | _ => 0

/-- The attraction parameters of a pure object at a temperature. -/
noncomputable def pureShape (e : Env) (k : Kind) (s : State) (a : Comp) : Shape :=
  match k with
  | .ig | .vdw | .rk => .nothing
  | .pr | .prT => .kappa (a.w * (-0.26992 * a.w + 1.54226) + 0.37464)
  | .prPPJP => .kappa (a.w * (a.w * (0.1063 * a.w - 0.2721) + 1.4996) + 0.3919)
  | .pr78 => .kappa (kappa78 a.w)
  | .srk | .srkT => .m (0.480 + 1.574 * a.w - 0.176 * a.w * a.w)
  | .prCons =>
    let o := clamp 1.48 a.w
    .alpha (a.alpha.getD [o * (0.1290 * o + 0.6039) + 0.0877, o * (0.1760 * o - 0.2600) + 0.8884, 2])
  | .srkCons =>
    let o := clamp 1.46 a.w
    .alpha (a.alpha.getD [o * (0.0947 * o + 0.6871) + 0.1508, o * (0.1615 * o - 0.2349) + 0.8876, 2])
  | .msrk => .alpha (a.alpha.getD (e.est a.Tc a.Pc a.w (pureC .msrk a)))
  | .prsv => .prsv (a.w * (a.w * (0.0196554 * a.w - 0.17131848) + 1.4897153) + 0.378893)
      (if s.pv then a.k1.getD 0 else if e.limit ∧ s.T / a.Tc > 0.7 then 0 else a.k1.getD 0)
  | .prsv2 => .prsv2 (a.w * (a.w * (0.0196554 * a.w - 0.17131848) + 1.4897153) + 0.378893) (a.k1.getD 0) (a.k2.getD 0) (a.k3.getD 0)
  | .twuPR | .twuSRK => .acentric a.w
  | .api => .api (a.S1.getD (0.48508 + 1.55171 * a.w - 0.15613 * a.w * a.w)) (a.S2.getD 0)

/-- `a` of a pure object (eos.py 7491, 8066, 8150, 8246, 8528, 8634, 8895, 9194, 9506, 9836, 10126, 10255, 10522, 10616, 10814, 10909). -/
noncomputable def pureA (k : Kind) (a : Comp) : ℝ :=
  match k with
  | .ig => 0
  | .pr | .prsv => (c2 k * R * a.Tc / a.Pc) * a.Tc * (c1 k * R ^ 2 / (c2 k * R))
  | .vdw => 27 / 64 * R ^ 2 * a.Tc * (a.Tc / a.Pc)
  | _ => c1 k * R ^ 2 * a.Tc * a.Tc / a.Pc

/-- `b` of a pure object before translation (eos.py 7490, 8067, 8161, 8251, 8529, 8633, 8896, 9195, 9507, 9837, 10135, 10259, 10404, 10523,
10617, 10815, 10910). -/
noncomputable def pureB0 (k : Kind) (a : Comp) : ℝ :=
  match k with
  | .ig => 0
  | .vdw => 0.125 * R * (a.Tc / a.Pc)
  | _ => c2 k * R * a.Tc / a.Pc

/-- `delta` of a pure object (eos.py 7493, 8068, 8165, 8254, 8532, 8635, 8897, 9507, 9839, 10141, 10262, 10526, 10618, 10816, 10911). -/
noncomputable def pureDelta (k : Kind) (b0 c : ℝ) : ℝ :=
  match k with
  | .ig | .vdw => 0
  | .rk | .srk | .twuSRK | .api => b0
  | .pr | .pr78 | .prsv | .prsv2 | .twuPR => 2 * b0
  | .prT | .prPPJP | .prCons => 2 * (c + b0)
  | .srkT | .srkCons | .msrk => c + c + b0

/-- `epsilon` of a pure object (eos.py 7493, 8068, 8166, 8255, 8533, 8636, 8898, 10143, 10263, 10527, 10817). -/
noncomputable def pureEps (k : Kind) (b0 c : ℝ) : ℝ :=
  match k with
  | .ig | .vdw | .rk | .srk | .twuSRK | .api => 0
  | .pr | .pr78 | .prsv | .prsv2 | .twuPR => -b0 * b0
  | .prT | .prPPJP | .prCons => -b0 * b0 + c * c + 2 * c * b0
  | .srkT | .srkCons | .msrk => c * (b0 + c)

/-- The constructor of a pure object. -/
noncomputable def pureObj (e : Env) (k : Kind) (s : State) (a : Comp) : Pure where
  a := pureA k a
  b := pureB0 k a - pureC k a
  delta := pureDelta k (pureB0 k a) (pureC k a)
  epsilon := pureEps k (pureB0 k a) (pureC k a)
  shape := pureShape e k s a

/-! ## Mixtures -/

/-- The keyword arguments an object stores to be built again. -/
structure Kw (n : ℕ) where
  /-- `kijs` -/
  kijs : Option (Fin n → Fin n → ℝ) := none
  /-- `cs` -/
  cs : Option (Fin n → ℝ) := none
  /-- `alpha_coeffs` -/
  alphas : Option (Fin n → List ℝ) := none
  /-- `kappa1s` -/
  k1s : Option (Fin n → ℝ) := none
  /-- `kappa2s` -/
  k2s : Option (Fin n → ℝ) := none
  /-- `kappa3s` -/
  k3s : Option (Fin n → ℝ) := none
  /-- `S1s` -/
  S1s : Option (Fin n → ℝ) := none
  /-- `S2s` -/
  S2s : Option (Fin n → ℝ) := none

/-- The arguments of a constructor. -/
structure Args (n : ℕ) where
  /-- `Tcs` -/
  Tcs : Fin n → ℝ
  /-- `Pcs` -/
  Pcs : Fin n → ℝ
  /-- `omegas` -/
  omegas : Option (Fin n → ℝ)
  /-- `zs` -/
  zs : Fin n → ℝ
  /-- temperature and how it was obtained -/
  state : State
  /-- the other keyword arguments -/
  kw : Kw n

/-- What the constructor is given about component `i`. -/
def Args.comp {n : ℕ} (g : Args n) (i : Fin n) : Comp where
  Tc := g.Tcs i
  Pc := g.Pcs i
  omega := g.omegas.map (· i)
  c := g.kw.cs.map (· i)
  alpha := g.kw.alphas.map (· i)
  k1 := g.kw.k1s.map (· i)
  k2 := g.kw.k2s.map (· i)
  k3 := g.kw.k3s.map (· i)
  S1 := g.kw.S1s.map (· i)
  S2 := g.kw.S2s.map (· i)

/-- A mixture object. -/
structure Obj (n : ℕ) where
  /-- `Tcs` -/
  Tcs : Fin n → ℝ
  /-- `Pcs` -/
  Pcs : Fin n → ℝ
  /-- `omegas` -/
  omegas : Option (Fin n → ℝ)
  /-- `zs` -/
  zs : Fin n → ℝ
  /-- `kijs` -/
  kijs : Fin n → Fin n → ℝ
  /-- `kwargs` -/
  kw : Kw n
  /-- `ais` -/
  ais : Fin n → ℝ
  /-- `b0s` (the same as `bs` where there is no translation) -/
  b0s : Fin n → ℝ
  /-- `cs` (0 where there is no translation) -/
  cs : Fin n → ℝ
  /-- `bs` -/
  bs : Fin n → ℝ
  /-- parameters of the attraction functions -/
  shape : Fin n → Shape
  /-- `b` -/
  b : ℝ
  /-- `c` -/
  c : ℝ
  /-- `delta` -/
  delta : ℝ
  /-- `epsilon` -/
  epsilon : ℝ
  /-- the attribute `kappas` of the two Stryjek-Vera classes, which depends on temperature (0 elsewhere) -/
  kappaT : Fin n → ℝ

/-- `ais` (e.g. 6546 and 8693, 9679, 10131). -/
noncomputable def mixA (k : Kind) (a : Comp) : ℝ :=
  match k with
  | .ig => 0
  | .srk | .vdw | .msrk => c1 k * R ^ 2 * a.Tc * a.Tc / a.Pc
  | _ => c1 k * R ^ 2 / (c2 k * R) * a.Tc * (c2 k * R * a.Tc / a.Pc)

/-- `b0s` (e.g. 6545, 7930). -/
noncomputable def mixB0 (k : Kind) (a : Comp) : ℝ := c2 k * R * a.Tc / a.Pc

/-- `cs` (7933-7937, 8508-8513, 9044-9048, 9479-9484, 9682-9683). -/
noncomputable def mixC (k : Kind) (a : Comp) : ℝ :=
  match k with
  | .prT | .prPPJP | .srkT | .msrk => a.c.getD 0
  | .prCons => a.c.getD (R * a.Tc / a.Pc * (0.0198 * clamp 1.48 a.w - 0.0065))
  | .srkCons => a.c.getD (R * a.Tc / a.Pc * (0.0172 * clamp 1.46 a.w + 0.0096))
  | _ => 0

/-- `alpha_coeffs` (8514-8520, 9486-9492, 9684-9687). -/
noncomputable def mixAlpha (e : Env) (k : Kind) (a : Comp) : List ℝ :=
  match k with
  | .prCons =>
    let o := clamp 1.48 a.w
    a.alpha.getD [o * (0.1290 * o + 0.6039) + 0.0877, o * (0.1760 * o - 0.2600) + 0.8884, 2]
  | .srkCons =>
    let o := clamp 1.46 a.w
    a.alpha.getD [o * (0.0947 * o + 0.6871) + 0.1508, o * (0.1615 * o - 0.2349) + 0.8876, 2]
  | .msrk => a.alpha.getD (e.est a.Tc a.Pc a.w (mixC .msrk a))
  | _ => []

/-- `S1s` (11400-11406). -/
noncomputable def mixS1 (a : Comp) : ℝ := a.S1.getD (a.w * (1.55171 - 0.15613 * a.w) + 0.48508)

/-- `kappa0s` (10609, 10871). -/
noncomputable def mixK0 (a : Comp) : ℝ := a.w * (a.w * (0.0196554 * a.w - 0.17131848) + 1.4897153) + 0.378893

/-- `kappa1s` of `PRSVMIX` (10622-10628). -/
noncomputable def mixK1 (e : Env) (s : State) (a : Comp) : ℝ :=
  if s.pv then a.k1.getD 0 else if s.T / a.Tc > 0.7 ∧ e.limit then 0 else a.k1.getD 0

/-- The parameters of the attraction functions. -/
noncomputable def mixShape (e : Env) (k : Kind) (s : State) (a : Comp) : Shape :=
  match k with
  | .ig | .vdw | .rk => .nothing
  | .pr | .prT => .kappa (a.w * (-0.26992 * a.w + 1.54226) + 0.37464)
  | .prPPJP => .kappa (a.w * (a.w * (0.1063 * a.w - 0.2721) + 1.4996) + 0.3919)
  | .pr78 => .kappa (if a.w > 0.491 then a.w * (a.w * (0.016666 * a.w - 0.164423) + 1.48503) + 0.379642
      else a.w * (-0.26992 * a.w + 1.54226) + 0.37464)
  | .srk | .srkT => .m (a.w * (1.574 - 0.176 * a.w) + 0.480)
  | .prCons | .srkCons | .msrk => .alpha (mixAlpha e k a)
  | .prsv => .prsv (mixK0 a) (mixK1 e s a)
  | .prsv2 => .prsv2 (mixK0 a) (a.k1.getD 0) (a.k2.getD 0) (a.k3.getD 0)
  | .twuPR | .twuSRK => .acentric a.w
  | .api => .api (mixS1 a) (a.S2.getD 0)

/-- The attribute `kappas` (10631, 10891-10895). -/
noncomputable def mixKappaT (e : Env) (k : Kind) (s : State) (a : Comp) : ℝ :=
  match k with
  | .prsv => mixK0 a + mixK1 e s a * (1 + Real.sqrt (s.T / a.Tc)) * (0.7 - s.T / a.Tc)
  | .prsv2 => mixK0 a + (a.k1.getD 0 + a.k2.getD 0 * (a.k3.getD 0 - s.T / a.Tc) * (1 - Real.sqrt (s.T / a.Tc)))
      * (1 + Real.sqrt (s.T / a.Tc)) * (0.7 - s.T / a.Tc)
  | _ => 0

/-- `b` (e.g. 6551, 7957). -/
noncomputable def mixB (k : Kind) (b0 c : ℝ) : ℝ :=
  match k with
  | .ig => 0
  | .prT | .prPPJP | .prCons | .srkT | .srkCons | .msrk => b0 - c
  | _ => b0

/-- `delta` (e.g. 6551, 6904, 7958, 9089). -/
noncomputable def mixDelta (k : Kind) (b0 c : ℝ) : ℝ :=
  match k with
  | .ig | .vdw => 0
  | .rk | .srk | .twuSRK | .api => b0
  | .pr | .pr78 | .prsv | .prsv2 | .twuPR => 2 * b0
  | .prT | .prPPJP | .prCons => 2 * (c + b0)
  | .srkT | .srkCons | .msrk => c + c + b0

/-- `epsilon` (e.g. 6905, 7959, 9090). -/
noncomputable def mixEps (k : Kind) (b0 c : ℝ) : ℝ :=
  match k with
  | .ig | .vdw | .rk | .srk | .twuSRK | .api => 0
  | .pr | .pr78 | .prsv | .prsv2 | .twuPR => -b0 * b0
  | .prT | .prPPJP | .prCons => -b0 * b0 + c * (c + b0 + b0)
  | .srkT | .srkCons | .msrk => c * (b0 + c)

/-- The keyword arguments kept (6280, 6534, 6880, 7951, 8355, 8522, 8682, 9056, 9494, 9689, 9988, 10119, 10595, 10852, 11089, 11245 and
11413, which replaces 11390). -/
noncomputable def kept {n : ℕ} (e : Env) (k : Kind) (g : Args n) : Kw n :=
  let kijs := some (g.kw.kijs.getD fun _ _ => 0)
  match k with
  | .ig | .rk | .pr | .srk | .pr78 | .vdw | .twuPR | .twuSRK => { kijs := kijs }
  | .prT | .prPPJP | .srkT => { kijs := kijs, cs := some fun i => mixC k (g.comp i) }
  | .prCons | .srkCons | .msrk =>
    { kijs := kijs, cs := some fun i => mixC k (g.comp i), alphas := some fun i => mixAlpha e k (g.comp i) }
  | .prsv => { kijs := kijs, k1s := some fun i => (g.comp i).k1.getD 0 }
  | .prsv2 => { kijs := kijs, k1s := some fun i => (g.comp i).k1.getD 0, k2s := some fun i => (g.comp i).k2.getD 0,
                k3s := some fun i => (g.comp i).k3.getD 0 }
  | .api => { S1s := some fun i => mixS1 (g.comp i), S2s := some fun i => (g.comp i).S2.getD 0 }

/-- Acentric factors are optional for these classes (6264, 6518, 10106); for `APISRKMIX` (11398-11399) unless `S1s` is missing too. -/
def enough {n : ℕ} (k : Kind) (g : Args n) : Bool :=
  match k with
  | .ig | .rk | .vdw => true
  | .api => g.omegas.isSome || g.kw.S1s.isSome
  | _ => g.omegas.isSome

/-- The object a constructor sets up before `solve`. -/
noncomputable def build {n : ℕ} (e : Env) (k : Kind) (g : Args n) : Obj n :=
  let b0 := ∑ i, mixB0 k (g.comp i) * g.zs i
  let c := ∑ i, mixC k (g.comp i) * g.zs i
  { Tcs := g.Tcs, Pcs := g.Pcs, omegas := g.omegas, zs := g.zs
    kijs := g.kw.kijs.getD fun _ _ => 0
    kw := kept e k g
    ais := fun i => mixA k (g.comp i)
    b0s := fun i => mixB0 k (g.comp i)
    cs := fun i => mixC k (g.comp i)
    bs := fun i => mixB0 k (g.comp i) - mixC k (g.comp i)
    shape := fun i => mixShape e k g.state (g.comp i)
    b := mixB k b0 c
    c := c
    delta := mixDelta k b0 c
    epsilon := mixEps k b0 c
    kappaT := fun i => mixKappaT e k g.state (g.comp i) }

/-- A constructor. -/
noncomputable def construct {n : ℕ} (e : Env) (k : Kind) (g : Args n) : Option (Obj n) :=
  if enough k g then some (build e k g) else none

/-- `_fast_init_specific` within `to_TP_zs_fast` (519-548): the sums at the new composition, the rest copied. -/
noncomputable def fast {n : ℕ} (k : Kind) (o : Obj n) (zs : Fin n → ℝ) : Obj n :=
  let b0 := ∑ i, o.b0s i * zs i
  let c := ∑ i, o.cs i * zs i
  { o with zs := zs, b := mixB k b0 c, c := c, delta := mixDelta k b0 c, epsilon := mixEps k b0 c }

/-- The arguments with which an object is built again (597 and the others): its constants and the keyword arguments kept. -/
def again {n : ℕ} (o : Obj n) (zs : Fin n → ℝ) (s : State) : Args n :=
  { Tcs := o.Tcs, Pcs := o.Pcs, omegas := o.omegas, zs := zs, state := s, kw := o.kw }

/-- `to_TP_zs` and its relatives at a new state (597, 645, 699, 703, 767, 800). -/
noncomputable def rebuild {n : ℕ} (e : Env) (k : Kind) (o : Obj n) (zs : Fin n → ℝ) (s : State) : Option (Obj n) :=
  construct e k (again o zs s)

/-- `_custom_from_json` (438-439): the keyword arguments are collected from the attributes named in `kwargs_keys` (6075, 6515, 6848, 7901,
8304, 8473, 8657, 9033, 9447, 9656, 10102, 10569, 10815, 11070, 11224, 11371). The attribute `kappa1s` is the one possibly limited. -/
noncomputable def reloaded {n : ℕ} (k : Kind) (o : Obj n) : Obj n :=
  { o with kw :=
      match k with
      | .prsv => { o.kw with kijs := some o.kijs
                             k1s := some fun i => match o.shape i with | .prsv _ k1 => k1 | _ => 0 }
      | _ => { o.kw with kijs := some o.kijs } }

/-- The arguments of the pure constructor in `to_TPV_pure` (845-851). -/
def pureArgs {n : ℕ} (o : Obj n) (om : Fin n → ℝ) (i : Fin n) : Comp where
  Tc := o.Tcs i
  Pc := o.Pcs i
  omega := some (om i)
  c := o.kw.cs.map (· i)
  alpha := o.kw.alphas.map (· i)
  k1 := o.kw.k1s.map (· i)
  k2 := o.kw.k2s.map (· i)
  k3 := o.kw.k3s.map (· i)
  S1 := o.kw.S1s.map (· i)
  S2 := o.kw.S2s.map (· i)

/-- `to_TPV_pure` (845-851). -/
noncomputable def pureOf {n : ℕ} (e : Env) (k : Kind) (o : Obj n) (i : Fin n) (s : State) : Option Pure :=
  match o.omegas with
  | none => none
  | some om => some (pureObj e k s (pureArgs o om i))

/-- The arguments `subset` collects (391-406): compositions divided by their sum. -/
noncomputable def subArgs {n m : ℕ} (o : Obj n) (om : Fin n → ℝ) (kij : Fin n → Fin n → ℝ) (f : Fin m → Fin n) (s : State) : Args m where
  Tcs := fun j => o.Tcs (f j)
  Pcs := fun j => o.Pcs (f j)
  omegas := some fun j => om (f j)
  zs := fun j => o.zs (f j) * (1 / ∑ j, o.zs (f j))
  state := s
  kw := { kijs := some fun i j => kij (f i) (f j), cs := o.kw.cs.map (· ∘ f), alphas := o.kw.alphas.map (· ∘ f)
          k1s := o.kw.k1s.map (· ∘ f), k2s := o.kw.k2s.map (· ∘ f), k3s := o.kw.k3s.map (· ∘ f)
          S1s := o.kw.S1s.map (· ∘ f), S2s := o.kw.S2s.map (· ∘ f) }

/-- `subset` (391-407) given indexes, at a state: no component, fractions summing to zero, or a missing keyword are exceptions. -/
noncomputable def subset {n m : ℕ} (e : Env) (k : Kind) (o : Obj n) (f : Fin m → Fin n) (s : State) : Option (Obj m) :=
  match o.omegas, o.kw.kijs with
  | some om, some kij =>
    if m = 0 then none
    else if ∑ j, o.zs (f j) = 0 then none
    else construct e k (subArgs o om kij f s)
  | _, _ => none

/-- Exceptions. -/
inductive Err
  | value | type
  deriving DecidableEq, Repr

/-- Which of temperature, pressure, volume are given decides whether the constructor fails, and how: `check_sufficient_inputs` (10621,
11109, 11263, 11395), the division by critical temperatures of `PRSV2MIX` (10881-10893), the checks in `solve` (eos.py 1112-1149).
Volumes and pressures are not zero. -/
def specError (k : Kind) (T P V : Bool) : Option Err :=
  let sufficient := (T && P) || (T && V) || (P && V)
  match k with
  | .prsv | .twuPR | .twuSRK | .api => if sufficient then none else some .value
  | .prsv2 => if !(V && P) && !T then some .type else if sufficient then none else some .value
  | _ => if V then (if P || T then none else some .value) else if !T || !P then some .value else none

/-! ## Theorems -/

theorem R_ne : R ≠ 0 := by unfold R; norm_num

theorem c2_ne {k : Kind} (h : k ≠ .ig) : c2 k ≠ 0 := by cases k <;> simp_all [c2] <;> norm_num

theorem constructed {n : ℕ} {e : Env} {k : Kind} {g : Args n} {o : Obj n} (h : construct e k g = some o) : o = build e k g := by
  unfold construct at h
  split at h
  · exact (Option.some.inj h).symm
  · exact absurd h (by simp)

/-- The attraction parameter of the critical point: the textbook `c1 R² Tc²/Pc`, whichever way it is computed. -/
theorem C133_attraction {n : ℕ} {e : Env} {k : Kind} {g : Args n} {o : Obj n} (h : construct e k g = some o) (i : Fin n) :
    o.ais i = c1 k * (R * g.Tcs i) ^ 2 / g.Pcs i ∧ o.bs i + o.cs i = c2 k * R * g.Tcs i / g.Pcs i := by
  rw [constructed h]
  refine ⟨?_, by simp [build, mixB0, Args.comp]⟩
  have hR := R_ne
  by_cases hk : k = .ig
  · subst hk; simp [build, mixA, c1]
  · have hc := c2_ne hk
    have key : c1 k * R ^ 2 / (c2 k * R) * g.Tcs i * (c2 k * R * g.Tcs i / g.Pcs i) = c1 k * (R * g.Tcs i) ^ 2 / g.Pcs i := by
      have h1 : c1 k * R ^ 2 / (c2 k * R) * (c2 k * R) = c1 k * R ^ 2 := div_mul_cancel₀ _ (mul_ne_zero hc hR)
      calc _ = (c1 k * R ^ 2 / (c2 k * R) * (c2 k * R)) * g.Tcs i * g.Tcs i / g.Pcs i := by ring
        _ = _ := by rw [h1]; ring
    have key' : c1 k * R ^ 2 * g.Tcs i * g.Tcs i / g.Pcs i = c1 k * (R * g.Tcs i) ^ 2 / g.Pcs i := by ring
    cases k <;> first | exact absurd rfl hk | exact key | exact key'

/-- Nothing but volume `V` and the covolume before translation `b0`: the repulsion and attraction denominators each family is known for. -/
noncomputable def untranslated (k : Kind) (b0 V : ℝ) : ℝ :=
  match k with
  | .ig | .vdw => V ^ 2
  | .rk | .srk | .twuSRK | .api | .srkT | .srkCons | .msrk => V * (V + b0)
  | .pr | .pr78 | .prsv | .prsv2 | .twuPR | .prT | .prPPJP | .prCons => V * (V + b0) + b0 * (V - b0)

/-- The covolume and the translation of a mixture are the sums over its components, and its equation of state is the untranslated one of
the family at the volume plus the translation. -/
theorem C133_translation {n : ℕ} {e : Env} {k : Kind} {g : Args n} {o : Obj n} (h : construct e k g = some o) (V : ℝ) :
    o.b = ∑ i, o.bs i * g.zs i ∧ o.c = ∑ i, o.cs i * g.zs i ∧
      V - o.b = (V + o.c) - (o.b + o.c) ∧ V ^ 2 + o.delta * V + o.epsilon = untranslated k (o.b + o.c) (V + o.c) := by
  rw [constructed h]
  have hs : ∑ i, (mixB0 k (g.comp i) - mixC k (g.comp i)) * g.zs i
      = ∑ i, mixB0 k (g.comp i) * g.zs i - ∑ i, mixC k (g.comp i) * g.zs i := by
    rw [← sum_sub_distrib]; exact sum_congr rfl fun i _ => by ring
  refine ⟨?_, rfl, by ring, ?_⟩
  · show mixB k _ _ = _
    show _ = ∑ i, (mixB0 k (g.comp i) - mixC k (g.comp i)) * g.zs i
    rw [hs]
    cases k <;> simp [mixB, mixC, mixB0, c2]
  · simp only [build]
    cases k <;> simp [mixB, mixC, mixB0, mixDelta, mixEps, untranslated, c2] <;> ring

/-- A component taken out of the mixture (`to_TPV_pure`) has the parameters it has in the mixture. -/
theorem C133_pure {n : ℕ} {e : Env} {k : Kind} {g : Args n} {o : Obj n} (h : construct e k g = some o) {om : Fin n → ℝ}
    (ho : g.omegas = some om) (i : Fin n) :
    ∃ p, pureOf e k o i g.state = some p ∧ p.a = o.ais i ∧ p.b = o.bs i ∧ p.shape = o.shape i := by
  have hatt := (C133_attraction h i).1
  rw [constructed h] at hatt ⊢
  have hR := R_ne
  refine ⟨pureObj e k g.state (pureArgs (build e k g) om i), by simp only [pureOf, build, ho], ?_, ?_, ?_⟩
  · rw [hatt]
    show pureA k _ = _
    by_cases hk : k = .ig
    · subst hk; simp [pureA, c1]
    · have hc := c2_ne hk
      have h1 : c1 k * R ^ 2 / (c2 k * R) * (c2 k * R) = c1 k * R ^ 2 := div_mul_cancel₀ _ (mul_ne_zero hc hR)
      have key : c2 k * R * g.Tcs i / g.Pcs i * g.Tcs i * (c1 k * R ^ 2 / (c2 k * R)) = c1 k * (R * g.Tcs i) ^ 2 / g.Pcs i := by
        calc _ = (c1 k * R ^ 2 / (c2 k * R) * (c2 k * R)) * g.Tcs i * g.Tcs i / g.Pcs i := by ring
          _ = _ := by rw [h1]; ring
      have key' : c1 k * R ^ 2 * g.Tcs i * g.Tcs i / g.Pcs i = c1 k * (R * g.Tcs i) ^ 2 / g.Pcs i := by ring
      have key2 : 27 / 64 * R ^ 2 * g.Tcs i * (g.Tcs i / g.Pcs i) = 27 / 64 * (R * g.Tcs i) ^ 2 / g.Pcs i := by ring
      cases k <;> first | exact absurd rfl hk | exact key | exact key' | exact key2
  · show pureB0 k _ - pureC k _ = mixB0 k _ - mixC k _
    have hb0 : pureB0 k (pureArgs (build e k g) om i) = mixB0 k (g.comp i) := by
      cases k <;> simp [pureB0, mixB0, pureArgs, build, Args.comp, c2]
      ring
    have hcc : pureC k (pureArgs (build e k g) om i) = mixC k (g.comp i) := by
      cases k <;> simp [pureC, mixC, pureArgs, build, kept]
    rw [hb0, hcc]
  · show pureShape e k _ _ = mixShape e k _ _
    cases k <;> simp [pureShape, mixShape, pureC, pureArgs, build, kept, Args.comp, mixAlpha, mixC, mixK0, mixK1, mixS1, kappa78, Comp.w, ho]
    · ring
    · ring
    · by_cases hw : om i ≤ 0.491
      · rw [if_pos hw, if_neg (not_lt.mpr hw)]; ring
      · rw [if_neg hw, if_pos (not_le.mp hw)]
    · simp only [and_comm]

/-- A mixture of one component is the pure equation of state. -/
theorem C133_single {e : Env} {k : Kind} {g : Args 1} {o : Obj 1} (h : construct e k g = some o) {om : Fin 1 → ℝ}
    (ho : g.omegas = some om) (hz : g.zs 0 = 1) :
    ∃ p, pureOf e k o 0 g.state = some p ∧ p.b = o.b ∧ p.delta = o.delta ∧ p.epsilon = o.epsilon := by
  obtain ⟨p, hp, -, hb, -⟩ := C133_pure h ho 0
  refine ⟨p, hp, ?_, ?_, ?_⟩
  · rw [hb, (C133_translation h 0).1]; simp [hz]
  all_goals
    rw [constructed h] at hp ⊢
    simp only [pureOf, build, ho, Option.some.injEq] at hp
    subst hp
    cases k <;> simp [pureObj, pureDelta, pureEps, pureB0, pureArgs, build, pureC, mixB0, mixC, mixDelta, mixEps, kept, Args.comp, c2, hz] <;>
      ring

/-- Without acentric factors, which some classes do not need, components cannot be taken out of the mixture. -/
theorem C133_pure_fails : ∃ (e : Env) (g : Args 1) (o : Obj 1), construct e .rk g = some o ∧ ∀ i s, pureOf e .rk o i s = none :=
  ⟨⟨fun _ _ _ _ => [], false⟩, ⟨fun _ => 1, fun _ => 1, none, fun _ => 1, ⟨1, false⟩, {}⟩, _, by simp only [construct, enough]; rfl,
    fun _ _ => rfl⟩

/-- The same parameters at a new composition are reached by copying as by building from the original arguments, if the class is not
`PRSVMIX` with a limit on its first parameter. -/
theorem C133_fast_partial {n : ℕ} {e : Env} {k : Kind} {g : Args n} {o : Obj n} (h : construct e k g = some o)
    (hl : k = .prsv → e.limit = false) (zs : Fin n → ℝ) (T : ℝ) :
    ∃ o', construct e k { g with zs := zs, state := ⟨T, false⟩ } = some o' ∧ { fast k o zs with kappaT := o'.kappaT } = o' ∧
      (k ≠ .prsv → k ≠ .prsv2 → fast k o zs = o') := by
  have he : enough k g = true := by
    by_contra hc
    simp [construct, hc] at h
  have he' : enough k { g with zs := zs, state := ⟨T, false⟩ } = true := by cases k <;> exact he
  refine ⟨build e k { g with zs := zs, state := ⟨T, false⟩ }, by simp only [construct, he', if_true], ?_, ?_⟩
  · rw [constructed h]
    have hsh : (fun i => mixShape e k g.state (g.comp i)) = fun i => mixShape e k ⟨T, false⟩ (g.comp i) := by
      funext i
      cases k <;> try rfl
      simp [mixShape, mixK1, hl rfl]
    simp only [build, fast]
    congr 1
  · intro h1 h2
    rw [constructed h]
    simp only [build, fast]
    congr 1
    · funext i; cases k <;> first | rfl | exact absurd rfl h1
    · funext i; cases k <;> first | rfl | exact absurd rfl h1 | exact absurd rfl h2

/-- An environment whose estimate is nothing; `lim` is the limit on the first parameter of `PRSVMIX`. -/
def envOf (lim : Bool) : Env := ⟨fun _ _ _ _ => [], lim⟩

/-- One component with critical temperature and pressure 1, at a temperature. -/
noncomputable def unit (T : ℝ) (pv : Bool) (kw : Kw 1) : Args 1 := ⟨fun _ => 1, fun _ => 1, some fun _ => 0, fun _ => 1, ⟨T, pv⟩, kw⟩

/-- Two components, the second with a large acentric factor. -/
noncomputable def pair (kw : Kw 2) : Args 2 := ⟨![300, 400], ![4000000, 3000000], some ![0.1, 0.6], ![0.25, 0.75], ⟨350, false⟩, kw⟩

/-- The hypotheses are met by a mixture of two components of each class. -/
example (k : Kind) : ∃ o, construct (envOf false) k (pair {}) = some o ∧ (pair {}).omegas = some ![0.1, 0.6] :=
  ⟨build (envOf false) k (pair {}), by cases k <;> simp [construct, enough, pair], rfl⟩

/-- A mixture of one component. -/
example (k : Kind) : ∃ o p, construct (envOf false) k (unit 0.5 false {}) = some o ∧ pureOf (envOf false) k o 0 ⟨0.5, false⟩ = some p ∧
    p.delta = o.delta := by
  have h : construct (envOf false) k (unit 0.5 false {}) = some (build (envOf false) k (unit 0.5 false {})) := by
    cases k <;> simp [construct, enough, unit]
  obtain ⟨p, hp, -, hd, -⟩ := C133_single h rfl rfl
  exact ⟨_, p, h, hp, hd⟩

/-- With the limit, an object made from one above the limit keeps the parameter removed, while one built there has it; and the attribute
`kappas` is in any case that of the old temperature. -/
theorem C133_fast_fails :
    (∃ o o' : Obj 1, construct (envOf true) .prsv (unit 0.9 false { k1s := some fun _ => 1 }) = some o ∧
      construct (envOf true) .prsv (unit 0.5 false { k1s := some fun _ => 1 }) = some o' ∧
      (fast .prsv o fun _ => 1).shape 0 = .prsv 0.378893 0 ∧ o'.shape 0 = .prsv 0.378893 1) ∧
    ∃ o o' : Obj 1, construct (envOf false) .prsv (unit 1 false { k1s := some fun _ => 1 }) = some o ∧
      construct (envOf false) .prsv (unit 0.25 false { k1s := some fun _ => 1 }) = some o' ∧
      (fast .prsv o fun _ => 1).kappaT 0 = 0.378893 - 0.6 ∧ o'.kappaT 0 = 0.378893 + 0.675 := by
  have hs : Real.sqrt 0.25 = 0.5 := by
    rw [show (0.25 : ℝ) = 0.5 ^ 2 by norm_num]; exact Real.sqrt_sq (by norm_num)
  refine ⟨⟨_, _, by simp only [construct, enough, unit]; rfl, by simp only [construct, enough, unit]; rfl, ?_, ?_⟩,
    ⟨_, _, by simp only [construct, enough, unit]; rfl, by simp only [construct, enough, unit]; rfl, ?_, ?_⟩⟩
  · simp [fast, build, mixShape, mixK0, mixK1, Args.comp, Comp.w, envOf]; norm_num
  · simp [build, mixShape, mixK0, mixK1, Args.comp, Comp.w, envOf]; norm_num
  · simp [fast, build, mixKappaT, mixK0, mixK1, Args.comp, Comp.w, envOf]; norm_num
  · simp only [build, mixKappaT, mixK0, mixK1, Args.comp, Comp.w, envOf, Option.map_some, Option.getD_some, div_one, hs]
    norm_num

/-- With the limit, the same state given by pressure and volume or by temperature and pressure makes different models. -/
theorem C133_limit_fails : ∃ o o' : Obj 1, construct (envOf true) .prsv (unit 0.9 true { k1s := some fun _ => 1 }) = some o ∧
    construct (envOf true) .prsv (unit 0.9 false { k1s := some fun _ => 1 }) = some o' ∧
    o.shape 0 = .prsv 0.378893 1 ∧ o'.shape 0 = .prsv 0.378893 0 := by
  refine ⟨_, _, by simp only [construct, enough, unit]; rfl, by simp only [construct, enough, unit]; rfl, ?_, ?_⟩
  · simp [build, mixShape, mixK0, mixK1, Args.comp, Comp.w, envOf]
  · simp [build, mixShape, mixK0, mixK1, Args.comp, Comp.w, envOf]; norm_num

/-- An object of any class but `APISRKMIX` built again at another state is the one the original arguments make there. -/
theorem C133_rebuild_partial {n : ℕ} {e : Env} {k : Kind} {g : Args n} {o : Obj n} (hk : k ≠ .api) (h : construct e k g = some o)
    (zs : Fin n → ℝ) (s : State) : rebuild e k o zs s = construct e k { g with zs := zs, state := s } := by
  rw [constructed h]
  set g' := again (build e k g) zs s with hg
  have hC : ∀ i, mixC k (g'.comp i) = mixC k (g.comp i) := by
    intro i; cases k <;> simp [hg, mixC, again, build, kept, Args.comp, Comp.w]
  have hB : ∀ i, mixB0 k (g'.comp i) = mixB0 k (g.comp i) := fun i => rfl
  have hA : ∀ i, mixA k (g'.comp i) = mixA k (g.comp i) := fun i => by cases k <;> rfl
  have hAl : ∀ i, mixAlpha e k (g'.comp i) = mixAlpha e k (g.comp i) := by
    intro i; cases k <;> simp [hg, mixAlpha, mixC, again, build, kept, Args.comp, Comp.w]
  have hS : ∀ i, mixShape e k s (g'.comp i) = mixShape e k s (g.comp i) := by
    intro i
    cases k <;> first
      | exact absurd rfl hk
      | rfl
      | simp [hg, mixShape, mixAlpha, mixC, again, build, kept, Args.comp, Comp.w, mixK0, mixK1]
  have hK : ∀ i, mixKappaT e k s (g'.comp i) = mixKappaT e k s (g.comp i) := by
    intro i
    cases k <;> first
      | rfl
      | simp [hg, mixKappaT, again, build, kept, Args.comp, Comp.w, mixK0, mixK1]
  have hkw : kept e k g' = kept e k g := by
    cases k <;> first
      | exact absurd rfl hk
      | simp [hg, kept, again, build, Args.comp, mixC, mixAlpha, Comp.w]
  have hij : g'.kw.kijs.getD (fun _ _ => 0) = g.kw.kijs.getD fun _ _ => 0 := by
    cases k <;> first | exact absurd rfl hk | rfl
  have hb : build e k g' = build e k { g with zs := zs, state := s } := by
    have e1 : g'.state = s := rfl
    have e2 : g'.zs = zs := rfl
    simp only [build, hC, hB, hA, hkw, hij, e1, e2, hS, hK]
    rfl
  have he : enough k g' = enough k { g with zs := zs, state := s } := by
    cases k <;> first | exact absurd rfl hk | rfl
  show construct e k g' = _
  unfold construct
  rw [he, hb]

/-- `APISRKMIX` forgets its interaction parameters: built again it has none. -/
theorem C133_rebuild_fails : ∃ (g : Args 2) (o o' : Obj 2), construct (envOf false) .api g = some o ∧ o.kijs 0 1 = 0.1 ∧
    rebuild (envOf false) .api o g.zs g.state = some o' ∧ o'.kijs 0 1 = 0 := by
  refine ⟨pair { kijs := some fun i j => if i = j then 0 else 0.1 }, _, _, by simp only [construct, enough, pair]; rfl, ?_,
    by simp only [rebuild, again, construct, enough, build, kept]; rfl, ?_⟩
  · simp [build]
  · simp [build]

/-- Whatever the class, a stored and reloaded object is built again with its interaction parameters. -/
theorem C133_reloaded {n : ℕ} {e : Env} {k : Kind} {g : Args n} {o o' : Obj n} (h : construct e k g = some o) (zs : Fin n → ℝ) (s : State)
    (h' : rebuild e k (reloaded k o) zs s = some o') : o'.kijs = o.kijs := by
  rw [constructed h']
  cases k <;> simp [build, again, reloaded]

/-- All of a reloaded object but the parameter `PRSVMIX` has lost to its limit. -/
theorem C133_reloaded_partial {n : ℕ} {e : Env} {k : Kind} {g : Args n} {o : Obj n} (h : construct e k g = some o)
    (hl : k = .prsv → e.limit = false) (zs : Fin n → ℝ) (s : State) :
    ∃ o', rebuild e k (reloaded k o) zs s = some o' ∧ o'.ais = o.ais ∧ o'.bs = o.bs ∧ o'.shape = o.shape ∧ o'.kijs = o.kijs := by
  have he : enough k g = true := by
    by_contra hc
    simp [construct, hc] at h
  rw [constructed h]
  have he' : enough k (again (reloaded k (build e k g)) zs s) = true := by
    cases k <;> simp_all [enough, again, reloaded, build, kept]
  refine ⟨build e k (again (reloaded k (build e k g)) zs s), by simp only [rebuild, construct, he', if_true], ?_, ?_, ?_, ?_⟩
  · funext i
    cases k <;> simp [build, again, reloaded, kept, Args.comp, mixA]
  · funext i
    cases k <;> simp [build, again, reloaded, kept, Args.comp, mixB0, mixC]
  · funext i
    cases k <;> simp [build, again, reloaded, kept, Args.comp, mixShape, mixAlpha, mixC, mixK0, mixK1, mixS1, Comp.w]
    simp [hl rfl]
  · cases k <;> simp [build, again, reloaded]

/-- With the limit, a reloaded object has lost the parameter for good. -/
theorem C133_reloaded_fails : ∃ o o' : Obj 1, construct (envOf true) .prsv (unit 0.9 false { k1s := some fun _ => 1 }) = some o ∧
    rebuild (envOf true) .prsv (reloaded .prsv o) (fun _ => 1) ⟨0.5, false⟩ = some o' ∧ o'.shape 0 = .prsv 0.378893 0 ∧
    ∃ o'', rebuild (envOf true) .prsv o (fun _ => 1) ⟨0.5, false⟩ = some o'' ∧ o''.shape 0 = .prsv 0.378893 1 := by
  refine ⟨_, _, by simp only [construct, enough, unit]; rfl, by simp only [rebuild, again, construct, enough, reloaded, build]; rfl, ?_, _,
    by simp only [rebuild, again, construct, enough, build]; rfl, ?_⟩
  · simp [build, reloaded, mixShape, mixK0, mixK1, Args.comp, Comp.w, envOf]; norm_num
  · simp [build, kept, mixShape, mixK0, mixK1, Args.comp, Comp.w, envOf]; norm_num

/-- Some of the components of an object of any class but `APISRKMIX`: they keep their parameters among each other, and the fractions sum
to one in the same proportions. -/
theorem C133_subset_partial {n m : ℕ} {e : Env} {k : Kind} {g : Args n} {o : Obj n} (hk : k ≠ .api) (h : construct e k g = some o)
    {om : Fin n → ℝ} (ho : g.omegas = some om) {f : Fin m → Fin n} (hm : m ≠ 0) (hz : ∑ j, g.zs (f j) ≠ 0) :
    ∃ o', subset e k o f g.state = some o' ∧ (∀ j, o'.ais j = o.ais (f j) ∧ o'.bs j = o.bs (f j) ∧ o'.shape j = o.shape (f j)) ∧
      (∀ i j, o'.kijs i j = o.kijs (f i) (f j)) ∧ ∑ j, o'.zs j = 1 ∧
      ∀ i j, o'.zs i * g.zs (f j) = o'.zs j * g.zs (f i) := by
  rw [constructed h]
  have hkk : (kept e k g).kijs = some (g.kw.kijs.getD fun _ _ => 0) := by cases k <;> first | rfl | exact absurd rfl hk
  have hs : (∑ j, g.zs (f j) * (1 / ∑ j, g.zs (f j))) = 1 := by rw [← sum_mul]; field_simp
  refine ⟨build e k (subArgs (build e k g) om (g.kw.kijs.getD fun _ _ => 0) f g.state), ?_, ?_, ?_, ?_, ?_⟩
  · have e1 : (build e k g).omegas = some om := ho
    have e2 : (build e k g).kw.kijs = some (g.kw.kijs.getD fun _ _ => 0) := hkk
    have e3 : ∑ j, (build e k g).zs (f j) ≠ 0 := hz
    simp only [subset, e1, e2, if_neg hm, if_neg e3, construct]
    rw [if_pos (by cases k <;> first | rfl | exact absurd rfl hk)]
  · intro j
    refine ⟨?_, ?_, ?_⟩
    · cases k <;> rfl
    · show mixB0 k _ - mixC k _ = mixB0 k _ - mixC k _
      cases k <;> simp [subArgs, build, mixB0, mixC, Args.comp, kept]
    · show mixShape e k _ _ = mixShape e k _ _
      cases k <;> first
        | exact absurd rfl hk
        | simp [subArgs, build, mixShape, mixAlpha, mixC, mixK0, mixK1, Args.comp, kept, Comp.w, ho]
  · intro i j; rfl
  · exact hs
  · intro i j
    show g.zs (f i) * _ * g.zs (f j) = g.zs (f j) * _ * g.zs (f i)
    ring

example : ∃ o o' : Obj 2, construct (envOf false) .prCons (pair {}) = some o ∧
    subset (envOf false) .prCons o id (pair {}).state = some o' ∧ ∑ j, o'.zs j = 1 := by
  have h : construct (envOf false) .prCons (pair {}) = some (build (envOf false) .prCons (pair {})) := by simp [construct, enough, pair]
  obtain ⟨o', h1, -, -, h2, -⟩ := C133_subset_partial (f := id) (by decide) h rfl (by norm_num) (by simp [pair]; norm_num)
  exact ⟨_, o', h, h1, h2⟩

/-- Components can never be selected from an `APISRKMIX`: the interaction parameters are looked up among the keyword arguments. -/
theorem C133_subset_fails {n m : ℕ} {e : Env} {g : Args n} {o : Obj n} (h : construct e .api g = some o) (f : Fin m → Fin n) (s : State) :
    subset e .api o f s = none := by
  have hn : o.kw.kijs = none := by rw [constructed h]; rfl
  unfold subset
  rw [hn]
  cases o.omegas <;> rfl

example : construct (envOf false) .api (pair {}) = some (build (envOf false) .api (pair {})) := by simp [construct, enough, pair]

/-- Without given translations, covolumes are positive for every class but the ideal gas. -/
theorem C133_covolume {n : ℕ} {e : Env} {k : Kind} {g : Args n} {o : Obj n} (h : construct e k g = some o) (hk : k ≠ .ig)
    (hc : g.kw.cs = none) (i : Fin n) (hT : 0 < g.Tcs i) (hP : 0 < g.Pcs i) : 0 < o.bs i := by
  have hR : 0 < R := by unfold R; norm_num
  have hq : 0 < R * g.Tcs i / g.Pcs i := by positivity
  rw [constructed h]
  show 0 < mixB0 k (g.comp i) - mixC k (g.comp i)
  have hb : mixB0 k (g.comp i) = c2 k * (R * g.Tcs i / g.Pcs i) := by simp [mixB0, Args.comp]; ring
  have hpos : 0 < c2 k := by cases k <;> first | exact absurd rfl hk | norm_num [c2]
  have hcl1 : clamp 1.48 (g.comp i).w ≤ 1.48 := min_le_right _ _
  have hcl2 : clamp 1.46 (g.comp i).w ≤ 1.46 := min_le_right _ _
  have h0 : mixC k (g.comp i) = 0 → 0 < mixB0 k (g.comp i) - mixC k (g.comp i) := by
    intro hz; rw [hz, hb, sub_zero]; positivity
  cases k <;> first
    | exact absurd rfl hk
    | exact h0 rfl
    | (refine h0 ?_; simp [mixC, Args.comp, hc]; done)
    | skip
  · have : mixC .prCons (g.comp i) = R * g.Tcs i / g.Pcs i * (0.0198 * clamp 1.48 (g.comp i).w - 0.0065) := by
      simp [mixC, Args.comp, hc]
    rw [this, hb, mul_comm (c2 _), ← mul_sub]
    refine mul_pos hq ?_
    norm_num [c2] at hcl1 ⊢
    linarith
  · have : mixC .srkCons (g.comp i) = R * g.Tcs i / g.Pcs i * (0.0172 * clamp 1.46 (g.comp i).w + 0.0096) := by
      simp [mixC, Args.comp, hc]
    rw [this, hb, mul_comm (c2 _), ← mul_sub]
    refine mul_pos hq ?_
    norm_num [c2] at hcl2 ⊢
    linarith

example (k : Kind) (hk : k ≠ .ig) : 0 < (build (envOf false) k (pair {})).bs 1 :=
  C133_covolume (e := envOf false) (g := pair {}) (by cases k <;> simp [construct, enough, pair]) hk rfl 1 (by simp [pair]) (by simp [pair])

/-- A given translation can make a covolume, and that of the mixture, negative without an error. -/
theorem C133_covolume_fails : ∃ o : Obj 1, construct (envOf false) .prT (unit 1 false { cs := some fun _ => 1 }) = some o ∧
    o.bs 0 < 0 ∧ o.b < 0 := by
  refine ⟨_, by simp only [construct, enough, unit]; rfl, ?_, ?_⟩ <;>
    norm_num [build, mixB, mixB0, mixC, Args.comp, c2, R]

/-- The slope of `PR78` changes formula above 0.491, which takes the first one; the second is larger there, so it is not continuous. -/
theorem C133_kappa78 : (∀ w ≤ (0.491 : ℝ), kappa78 w = 0.37464 + 1.54226 * w - 0.26992 * w ^ 2) ∧
    (∀ w > (0.491 : ℝ), kappa78 w = 0.379642 + 1.48503 * w - 0.164423 * w ^ 2 + 0.016666 * w ^ 3) ∧
    ∀ w > (0.491 : ℝ), w < 1 → kappa78 0.491 + 0.004 < kappa78 w := by
  refine ⟨fun w hw => ?_, fun w hw => ?_, fun w hw h1 => ?_⟩
  · rw [kappa78, if_pos hw]; ring
  · rw [kappa78, if_neg (not_le.mpr hw)]; ring
  · rw [kappa78, if_pos le_rfl, kappa78, if_neg (not_le.mpr hw)]
    norm_num at hw ⊢
    nlinarith [mul_pos (sub_pos.mpr hw) (sub_pos.mpr h1), mul_pos (mul_pos (sub_pos.mpr hw) (sub_pos.mpr h1)) (sub_pos.mpr hw),
      pow_pos (sub_pos.mpr hw) 3]

/-- A constructor fails exactly if fewer than two of temperature, pressure and volume are given. -/
theorem C133_specified (k : Kind) (T P V : Bool) :
    specError k T P V = none ↔ (T = true ∧ P = true) ∨ (T = true ∧ V = true) ∨ (P = true ∧ V = true) := by
  cases k <;> cases T <;> cases P <;> cases V <;> decide

/-- And then with a `ValueError`, if the class is not `PRSV2MIX` without a temperature. -/
theorem C133_error_partial {k : Kind} {T P V : Bool} {x : Err} (h : specError k T P V = some x) (hk : k = .prsv2 → T = true) : x = .value := by
  revert h hk
  cases k <;> cases T <;> cases P <;> cases V <;> cases x <;> decide

example : specError .prsv2 true false false = some .value := rfl

/-- `PRSV2MIX` divides by the critical temperatures before it looks at what was given. -/
theorem C133_error_fails : specError .prsv2 false true false = some .type ∧ specError .prsv2 false false true = some .type ∧
    specError .prsv false true false = some .value := by decide

end Verif.MixConstruct
