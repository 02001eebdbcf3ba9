import Mathlib.Tactic
import Mathlib.Data.Rat.Cast.Order
import Mathlib.Data.Real.Sqrt

/-!
# Methods that property objects offer, and the data these methods need

* C112: `load_all_methods` against `calculate` and `calculate_P` in `vapor_pressure.py`, `phase_change.py`, `volume.py`, `viscosity.py`, `thermal_conductivity.py`, `interface.py`, `heat_capacity.py`
  and `permittivity.py`: a method listed as available finds its inputs; which is the default; what the temperature limits are.

A property object is reduced to its constructor arguments (`None` or a number; a referenced object counts as a nonzero number, since objects are true in Python), whether data may be loaded,
whether the identifier is water, and for which methods the data tables of the external library have a row. Fits kept in JSON files (`HEOS_FIT`, `REFPROP_FIT`, `JANAF_FIT`, `UNARY`,
`COMMON_CHEMISTRY`) and the pieces of piecewise methods are added elsewhere and left out.
-/

namespace Verif.Offered

/-- Constructor arguments. -/
inductive Attr
  | MW | Tm | Tb | Tt | Tc | Pc | Vc | Zc | omega | dipole | Hfus | HvapTb | Psat | Vml | Vmg | Cpgm | Cpl | mug | Pt | HsubT | VmlTt | similarity | Zg | Hvap | Cpg | Cps
  deriving DecidableEq, Repr

/-- Method names; one name serves several classes. -/
inductive Method
  | coolprop | perry8E | vdiPpds | vdiTabular | alcock | landolt | joback | eos | neglectP
  | iapws | antoineWebbook | wagnerMcgarry | wagnerPoling | antoineExtended | antoinePoling | boilingCritical | leeKesler | ambroseWalton | sanjari | edalat | psubClapeyron
  | alibakhshi | crcHvapTb | crcHvap298 | gharagheiziHvap298 | morganKobayashi | sivaraman | velasco | pitzer | clapeyron | riedel | chen | vetere | liu
  | webbookHsub | gharagheiziHsub298 | gharagheiziHsub | crcHfusHvapTm
  | mmsnm0 | mmsnm0Fit | htcostald | htcostaldFit | rackett | rackettFit | yenWoods | yamadaGunn | bhirud | townsendHales | campbellThodos | crcInorgL | crcInorgLConst | costaldCompressed
  | crcVirial | tsonopoulos | tsonopoulosExtended | abbott | pitzerCurl | ideal | goodman | crcInorgS
  | duttPrasad | vn3 | vn2 | vn2e | letsouStiel | przedzieckiSridhar | lucas | gharagheizi | yoonThodos | stielThodos | lucasGas
  | bahadori | lakshmiPrasad | sheffyJohnson | gharagheiziL | nicola | nicolaOriginal | satoRiedel | dippr9G | missenard
  | gharagheiziG | dippr9B | chung | eliHanley | euckenMod | eucken | eliHanleyDense | chungDense | stielThodosDense
  | strefprop | somayajulu2 | somayajulu | jasper | miqueu | brockBird | sastriRao | pitzerSigma | zuoStenby | aleem
  | trcig | webbookShomate | janaf | polingPoly | polingConst | crcstd | lastovkaShaw | zabranskySpline | zabranskyQuasi | rowlinsonPoling | rowlinsonBondi | dadgostarShaw | perry151 | lastovkaS
  | crc | crcConstant
  deriving DecidableEq, Repr

/-- The classes; the pressure-dependent methods of a class are listed under a name of their own. -/
inductive Cls
  | psat | psub | hvap | hsub | vliq | vliqP | vsupP | vgasP | vsol | muliq | muliqP | mugas | mugasP | kliq | kliqP | kgas | kgasP | sigma | cpg | cpl | cps | eps
  deriving DecidableEq, Repr

/-- What `load_all_methods` sees. -/
structure Input where
  args : Attr → Option ℚ
  /-- `load_data and CASRN` -/
  load : Bool
  row : Method → Bool
  water : Bool

/-- The outer condition under which a method is added: on the arguments only, if its table has a row and data may be loaded, if the table has a row, or if the chemical is water. -/
inductive Src
  | args | table | tableAlways | water | waterLoaded
  deriving DecidableEq, Repr

/-- One branch of `load_all_methods`: `guard` are the arguments tested for truth (`all((self.Tc, …))`), `present` those tested with `is not None`. -/
structure Rule where
  method : Method
  src : Src
  guard : List Attr
  present : List Attr
  deriving DecidableEq, Repr

/-- Python's truth value of an argument: `None` and zero are false. -/
def truthy (args : Attr → Option ℚ) (a : Attr) : Bool :=
  match args a with
  | none => false
  | some v => v != 0

/-- A branch adds its method. -/
def fires (i : Input) (r : Rule) : Bool :=
  (match r.src with
    | .args => true
    | .table => i.load && i.row r.method
    | .tableAlways => i.row r.method
    | .water => i.water
    | .waterLoaded => i.load && i.water) &&
  r.guard.all (truthy i.args) && r.present.all fun a => (i.args a).isSome

private abbrev a (m : Method) (g : List Attr) : Rule := ⟨m, .args, g, []⟩
private abbrev t (m : Method) : Rule := ⟨m, .table, [], []⟩

open Attr Method in
/-- The branches of `load_all_methods`. -/
def rules : Cls → List Rule
  | .psat => -- vapor_pressure.py 406-473
    [⟨iapws, .water, [], []⟩, t antoineWebbook, t wagnerMcgarry, t wagnerPoling, t antoineExtended, t antoinePoling, t perry8E, t coolprop, t vdiTabular, t alcock, t vdiPpds, t landolt,
      a boilingCritical [Tb, Tc, Pc], a leeKesler [Tc, Pc, omega], a ambroseWalton [Tc, Pc, omega], a sanjari [Tc, Pc, omega], a edalat [Tc, Pc, omega], a eos [Tc, Pc, omega]]
  | .psub => -- vapor_pressure.py 674-687
    [a psubClapeyron [Tt, Pt, HsubT], ⟨iapws, .water, [], []⟩, t alcock, t landolt]
  | .hvap => -- phase_change.py 315-369
    [t coolprop, t vdiTabular, ⟨alibakhshi, .table, [], [Tc]⟩, t perry8E, t vdiPpds, t crcHvapTb, t crcHvap298, t gharagheiziHvap298,
      a morganKobayashi [Tc, omega], a sivaraman [Tc, omega], a velasco [Tc, omega], a pitzer [Tc, omega], a clapeyron [Tc, Pc],
      a riedel [Tb, Tc, Pc], a chen [Tb, Tc, Pc], a vetere [Tb, Tc, Pc], a liu [Tb, Tc, Pc]]
  | .hsub => -- phase_change.py 651-682
    [t webbookHsub, t gharagheiziHsub298, ⟨gharagheiziHsub, .table, [], [Cpg, Cps]⟩, t crcHfusHvapTm]
  | .vliq => -- volume.py 485-606
    [t coolprop, t crcInorgL, t perry8E, t vdiPpds, t crcInorgLConst, t vdiTabular, ⟨htcostaldFit, .table, [Tc], []⟩, ⟨rackettFit, .table, [Tc, Pc], []⟩, ⟨mmsnm0Fit, .table, [Tc, Vc, omega], []⟩,
      a yenWoods [Tc, Vc, Zc], a rackett [Tc, Pc, Zc], a yamadaGunn [Tc, Pc, omega], a bhirud [Tc, Pc, omega], a townsendHales [Tc, Vc, omega], a htcostald [Tc, Vc, omega], a mmsnm0 [Tc, Vc, omega],
      a eos [Tc, Vc, omega], a campbellThodos [Tc, Vc, omega, Tb, MW]]
  | .vliqP => -- volume.py 483-490, 607-609
    [a neglectP [], t coolprop, a costaldCompressed [Tc, Pc, omega], a eos [Tc, Pc, omega]]
  | .vsupP => -- volume.py 892-900 (without the test of `load_data`)
    [⟨coolprop, .tableAlways, [], []⟩, a eos [Tc, Pc, omega]]
  | .vgasP => -- volume.py 1397-1417
    [a ideal [], a tsonopoulosExtended [Tc, Pc, omega], a tsonopoulos [Tc, Pc, omega], a abbott [Tc, Pc, omega], a pitzerCurl [Tc, Pc, omega], a eos [Tc, Pc, omega], t crcVirial, t coolprop]
  | .vsol => -- volume.py 1787-1799
    [t crcInorgS, a goodman [Tt, VmlTt, MW]]
  | .muliq => -- viscosity.py 475-589
    [⟨joback, .table, [], [MW]⟩, t coolprop, t vdiTabular, t duttPrasad, t vn3, t vn2, t vn2e, t perry8E, ⟨vdiPpds, .tableAlways, [], []⟩,
      a letsouStiel [MW, Tc, Pc, omega], a przedzieckiSridhar [MW, Tm, Tc, Pc, Vc, omega, Vml]]
  | .muliqP => -- viscosity.py 471, 498, 590-591
    [a neglectP [], t coolprop, a lucas [Tc, Pc, omega]]
  | .mugas => -- viscosity.py 904-955
    [t vdiTabular, t coolprop, t perry8E, t vdiPpds, a gharagheizi [Tc, Pc, MW], a yoonThodos [Tc, Pc, MW], a stielThodos [Tc, Pc, MW], a lucasGas [Tc, Pc, Zc, MW]]
  | .mugasP => -- viscosity.py 900, 913
    [a neglectP [], t coolprop]
  | .kliq => -- thermal_conductivity.py 391-464
    [t vdiTabular, t coolprop, t perry8E, t vdiPpds, a bahadori [MW], a lakshmiPrasad [MW], a sheffyJohnson [MW, Tm], a gharagheiziL [Tb, Pc, omega], a nicola [Tc, Pc, omega],
      a satoRiedel [Tb, Tc], a nicolaOriginal [Hfus, Tc, omega]]
  | .kliqP => -- thermal_conductivity.py 388, 400, 465-466
    [a neglectP [], t coolprop, a dippr9G [Tc, Pc], a missenard [Tc, Pc]]
  | .kgas => -- thermal_conductivity.py 1023-1085
    [t vdiTabular, t coolprop, t perry8E, t vdiPpds, a gharagheiziG [MW, Tb, Pc, omega], a dippr9B [Cpgm, mug, MW, Tc], a chung [Cpgm, mug, MW, Tc, omega],
      a eliHanley [Cpgm, MW, Tc, Vc, Zc, omega], a euckenMod [Cpgm, mug, MW], a eucken [Cpgm, mug, MW], a bahadori [MW]]
  | .kgasP => -- thermal_conductivity.py 1020, 1032, 1087-1092
    [a neglectP [], t coolprop, a eliHanleyDense [MW, Tc, Vc, Zc, omega], a chungDense [MW, Tc, Vc, omega, dipole], a stielThodosDense [MW, Tc, Pc, Vc, Zc]]
  | .sigma => -- interface.py 330-410; the heat capacity at the boiling point, tested at 401, is the argument `Cpl` here
    [⟨iapws, .waterLoaded, [], []⟩, t strefprop, t somayajulu2, t somayajulu, t jasper, t vdiPpds, t vdiTabular, a miqueu [Tc, Vc, omega], a brockBird [Tb, Tc, Pc], a sastriRao [Tb, Tc, Pc],
      a pitzerSigma [Tc, Pc, omega], a zuoStenby [Tc, Pc, omega], a aleem [Tb, HvapTb, MW, Cpl]]
  | .cpg => -- heat_capacity.py 339-439
    [t joback, t webbookShomate, t trcig, t polingPoly, t polingConst, t crcstd, t vdiTabular, t janaf, t coolprop, ⟨lastovkaShaw, .args, [], [MW, similarity]⟩]
  | .cpl => -- heat_capacity.py 837-989; the three kinds of quasi-polynomials and of splines are one name each here
    [t webbookShomate, t polingConst, t crcstd, t zabranskyQuasi, t zabranskySpline, t janaf, t vdiTabular, t coolprop, a rowlinsonPoling [Tc, omega], a rowlinsonBondi [Tc, omega],
      a dadgostarShaw [MW, similarity]]
  | .cps => -- heat_capacity.py 1268-1316
    [t webbookShomate, t janaf, t perry151, t crcstd, a lastovkaS [MW, similarity]]
  | .eps => -- permittivity.py 171-183
    [t crcConstant, t crc, ⟨iapws, .water, [], []⟩]

/-- `all_methods` (or `all_methods_P`) after loading. -/
def load (c : Cls) (i : Input) : List Method := ((rules c).filter (fires i)).map Rule.method

open Attr Method in
/-- The arguments that `calculate` (or `calculate_P`) hands to the correlation and without which it raises. Arguments with a documented default for `None` (the dipole moment of `LUCAS_GAS` and
`TSONOPOULOS_EXTENDED`) are left out, and so is what the temperature-dependent method below a pressure-dependent one needs. -/
def uses : Cls → Method → List Attr
  -- vapor_pressure.py 495-518
  | .psat, boilingCritical => [Tb, Tc, Pc]
  | .psat, leeKesler | .psat, ambroseWalton | .psat, sanjari | .psat, edalat | .psat, eos => [Tc, Pc, omega]
  -- vapor_pressure.py 716-722
  | .psub, psubClapeyron => [Tt, Pt, HsubT]
  -- phase_change.py 403-451; `dZ` is bound only if there is a `Zg`
  | .hvap, alibakhshi => [Tc]
  | .hvap, morganKobayashi | .hvap, sivaraman | .hvap, velasco | .hvap, pitzer => [Tc, omega]
  | .hvap, clapeyron => [Psat, Zg, Tc, Pc]
  | .hvap, riedel | .hvap, chen | .hvap, vetere | .hvap, liu => [Tb, Tc, Pc]
  -- phase_change.py 711-731
  | .hsub, gharagheiziHsub => [Cpg, Cps]
  | .hsub, crcHfusHvapTm => [Tm, Hvap, Cpg, Cps]
  -- volume.py 639-667 and the correlations set up at 551-585
  | .vliq, htcostaldFit => [Tc]
  | .vliq, rackettFit => [Tc, Pc]
  | .vliq, rackett => [Tc, Pc, Zc]
  | .vliq, yamadaGunn | .vliq, bhirud | .vliq, eos => [Tc, Pc, omega]
  | .vliq, townsendHales | .vliq, htcostald | .vliq, mmsnm0 | .vliq, mmsnm0Fit => [Tc, Vc, omega]
  | .vliq, yenWoods => [Tc, Vc, Zc]
  | .vliq, campbellThodos => [Tb, Tc, Pc, MW]
  -- volume.py 690-702, 946-956, 1446-1474
  | .vliqP, costaldCompressed => [Psat, Tc, Pc, omega]
  | .vliqP, eos | .vsupP, eos | .vgasP, eos => [Tc, Pc, omega]
  | .vgasP, tsonopoulosExtended | .vgasP, tsonopoulos | .vgasP, abbott | .vgasP, pitzerCurl => [Tc, Pc, omega]
  -- volume.py 1821-1825
  | .vsol, goodman => [Tt, VmlTt]
  -- viscosity.py 631-645, 669-677, 991-1004; `log(self.MW)` at 486
  | .muliq, joback => [MW]
  | .muliq, letsouStiel => [MW, Tc, Pc, omega]
  | .muliq, przedzieckiSridhar => [Vml, Tm, Tc, Pc, Vc, omega, MW]
  | .muliqP, lucas => [Psat, Tc, Pc, omega]
  | .mugas, gharagheizi | .mugas, yoonThodos | .mugas, stielThodos => [Tc, Pc, MW]
  | .mugas, lucasGas => [Tc, Pc, Zc, MW]
  -- thermal_conductivity.py 505-523, 546-556
  | .kliq, sheffyJohnson => [MW, Tm]
  | .kliq, satoRiedel => [MW, Tb, Tc]
  | .kliq, gharagheiziL => [MW, Tb, Pc, omega]
  | .kliq, nicola => [MW, Tc, Pc, omega]
  | .kliq, nicolaOriginal => [MW, Tc, omega, Hfus]
  | .kliq, lakshmiPrasad | .kliq, bahadori => [MW]
  | .kliqP, dippr9G | .kliqP, missenard => [Tc, Pc]
  -- thermal_conductivity.py 1131-1153, 1176-1193
  | .kgas, gharagheiziG => [MW, Tb, Pc, omega]
  | .kgas, dippr9B => [MW, Cpgm, mug, Tc]
  | .kgas, chung => [MW, Tc, omega, Cpgm, mug]
  | .kgas, eliHanley => [MW, Tc, Vc, Zc, omega, Cpgm]
  | .kgas, euckenMod | .kgas, eucken => [MW, Cpgm, mug]
  | .kgas, bahadori => [MW]
  | .kgasP, eliHanleyDense => [Vmg, Cpgm, MW, Tc, Vc, Zc, omega]
  | .kgasP, chungDense => [Vmg, Cpgm, mug, MW, Tc, Vc, omega, dipole]
  | .kgasP, stielThodosDense => [Vmg, MW, Tc, Pc, Vc, Zc]
  -- interface.py 433-458
  | .sigma, brockBird | .sigma, sastriRao => [Tb, Tc, Pc]
  | .sigma, pitzerSigma | .sigma, zuoStenby => [Tc, Pc, omega]
  | .sigma, miqueu => [Tc, Vc, omega]
  | .sigma, aleem => [Cpl, MW, Vml, Tb, HvapTb]
  -- heat_capacity.py 483-492, 1023-1034, 1339-1341
  | .cpg, lastovkaShaw => [similarity, MW]
  | .cpl, rowlinsonPoling | .cpl, rowlinsonBondi => [Cpgm, Tc, omega]
  | .cpl, dadgostarShaw => [similarity, MW]
  | .cps, lastovkaS => [similarity, MW]
  | _, _ => []

open Method in
/-- `ranked_methods` and `ranked_methods_P`, without the names that stand for fits kept in files. -/
def ranked : Cls → List Method
  | .psat => [iapws, wagnerMcgarry, wagnerPoling, antoineExtended, perry8E, vdiPpds, coolprop, antoinePoling, vdiTabular, antoineWebbook, alcock, landolt, ambroseWalton, leeKesler, edalat,
      boilingCritical, eos, sanjari]
  | .psub => [iapws, alcock, landolt, psubClapeyron]
  | .hvap => [coolprop, perry8E, vdiPpds, morganKobayashi, sivaraman, velasco, pitzer, vdiTabular, alibakhshi, crcHvapTb, crcHvap298, gharagheiziHvap298, clapeyron, riedel, chen, vetere, liu]
  | .hsub => [webbookHsub, gharagheiziHsub, crcHfusHvapTm, gharagheiziHsub298]
  | .vliq => [perry8E, vdiPpds, coolprop, mmsnm0Fit, vdiTabular, htcostaldFit, rackettFit, crcInorgL, crcInorgLConst, mmsnm0, htcostald, yenWoods, rackett, yamadaGunn, bhirud, townsendHales,
      campbellThodos, eos]
  | .vliqP | .vsupP => [coolprop, costaldCompressed, eos, neglectP]
  | .vgasP => [ideal, coolprop, eos, tsonopoulosExtended, tsonopoulos, abbott, pitzerCurl, crcVirial]
  | .vsol => [crcInorgS, goodman]
  | .muliq => [coolprop, perry8E, vdiPpds, duttPrasad, vn3, vn2, vn2e, vdiTabular, letsouStiel, joback, przedzieckiSridhar]
  | .muliqP => [coolprop, lucas, neglectP]
  | .mugas => [coolprop, perry8E, vdiPpds, vdiTabular, gharagheizi, yoonThodos, stielThodos, lucasGas]
  | .mugasP => [neglectP, coolprop]
  | .kliq => [coolprop, perry8E, vdiPpds, vdiTabular, gharagheiziL, sheffyJohnson, satoRiedel, lakshmiPrasad, bahadori, nicola, nicolaOriginal]
  | .kliqP => [coolprop, dippr9G, missenard, neglectP]
  | .kgas => [coolprop, vdiPpds, perry8E, vdiTabular, gharagheiziG, dippr9B, chung, eliHanley, euckenMod, eucken, bahadori]
  | .kgasP => [coolprop, eliHanleyDense, chungDense, stielThodosDense, neglectP]
  | .sigma => [iapws, strefprop, somayajulu2, somayajulu, vdiPpds, vdiTabular, jasper, miqueu, brockBird, sastriRao, pitzerSigma, zuoStenby, aleem]
  | .cpg => [trcig, webbookShomate, janaf, polingPoly, coolprop, joback, lastovkaShaw, crcstd, polingConst, vdiTabular]
  | .cpl => [zabranskySpline, zabranskyQuasi, webbookShomate, janaf, vdiTabular, coolprop, dadgostarShaw, rowlinsonPoling, rowlinsonBondi, polingConst, crcstd]
  | .cps => [webbookShomate, janaf, perry151, crcstd, lastovkaS]
  | .eps => [iapws, crc, crcConstant]

/-- The default method (`t_dependent_property.py` 5058-5064 and the loops at the end of the pressure-dependent `load_all_methods`): the first ranked one that is available. -/
def default (c : Cls) (i : Input) : Option Method := (ranked c).find? fun m => decide (m ∈ load c i)

/-! ## Specification -/

/-- The call of the correlation finds every argument. -/
def Calculable (c : Cls) (i : Input) (m : Method) : Prop := ∀ x ∈ uses c m, i.args x ≠ none

open Attr Method in
/-- The arguments needed by a method although the object does not test for them. -/
def unchecked : Cls → Method → List Attr
  | .hvap, clapeyron => [Psat, Zg]
  | .hsub, crcHfusHvapTm => [Tm, Hvap, Cpg, Cps]
  | .vliq, eos | .vliq, campbellThodos => [Pc]
  | .vliqP, costaldCompressed | .muliqP, lucas => [Psat]
  | .kliq, gharagheiziL | .kliq, nicola | .kliq, nicolaOriginal | .kliq, satoRiedel => [MW]
  | .kgasP, eliHanleyDense => [Vmg, Cpgm]
  | .kgasP, chungDense => [Vmg, Cpgm, mug]
  | .kgasP, stielThodosDense => [Vmg]
  | .sigma, aleem => [Vml]
  | .cpl, rowlinsonPoling | .cpl, rowlinsonBondi => [Cpgm]
  | _, _ => []

/-! ## Theorems -/

theorem mem_load {c : Cls} {i : Input} {m : Method} : m ∈ load c i ↔ ∃ r ∈ rules c, fires i r = true ∧ r.method = m := by
  simp only [load, List.mem_map, List.mem_filter]
  constructor
  · rintro ⟨r, ⟨h, h'⟩, e⟩; exact ⟨r, h, h', e⟩
  · rintro ⟨r, h, h', e⟩; exact ⟨r, ⟨h, h'⟩, e⟩

theorem truthy_iff {f : Attr → Option ℚ} {x : Attr} : truthy f x = true ↔ ∃ v, f x = some v ∧ v ≠ 0 := by
  unfold truthy
  cases h : f x <;> simp

theorem fires_given {i : Input} {r : Rule} (h : fires i r = true) {x : Attr} (hx : x ∈ r.guard ++ r.present) : i.args x ≠ none := by
  simp only [fires, Bool.and_eq_true, List.all_eq_true] at h
  rcases List.mem_append.1 hx with hx | hx
  · obtain ⟨v, hv, _⟩ := truthy_iff.1 (h.1.2 x hx); simp [hv]
  · have := h.2 x hx
    intro e; simp [e] at this

/-- Everything a table row says about one branch: what the correlation needs is tested, but for the listed arguments, which are not. -/
theorem audit (c : Cls) : ∀ r ∈ rules c, (∀ x ∈ uses c r.method, x ∈ r.guard ++ r.present ∨ x ∈ unchecked c r.method) ∧
    (∀ x ∈ unchecked c r.method, x ∈ uses c r.method ∧ x ∉ r.guard ++ r.present) := by
  cases c <;> decide

/-- No class adds a method twice, and every method that can be added is ranked. -/
theorem C112_ranked (c : Cls) : ((rules c).map Rule.method).Nodup ∧ ∀ r ∈ rules c, r.method ∈ ranked c := by
  cases c <;> decide

/-- A method that an object lists as available can be calculated exactly if the unchecked arguments are there. -/
theorem C112_available (c : Cls) (i : Input) (m : Method) (h : m ∈ load c i) : Calculable c i m ↔ ∀ x ∈ unchecked c m, i.args x ≠ none := by
  obtain ⟨r, hr, hf, rfl⟩ := mem_load.1 h
  obtain ⟨h1, h2⟩ := audit c r hr
  constructor
  · exact fun hc x hx => hc x (h2 x hx).1
  · intro hu x hx
    rcases h1 x hx with hg | hg
    · exact fires_given hf hg
    · exact hu x hg

/-- The object in which everything but one argument is known. -/
def allBut (x : Attr) : Input := ⟨fun y => if y = x then none else some 1, true, fun _ => true, true⟩

theorem fires_allBut {x : Attr} {r : Rule} (h : x ∉ r.guard ++ r.present) : fires (allBut x) r = true := by
  have hg : ∀ y ∈ r.guard, truthy (allBut x).args y = true := by
    intro y hy
    have : y ≠ x := fun e => h (List.mem_append.2 (Or.inl (e ▸ hy)))
    exact truthy_iff.2 ⟨1, by simp [allBut, this], one_ne_zero⟩
  have hp : ∀ y ∈ r.present, ((allBut x).args y).isSome = true := by
    intro y hy
    have : y ≠ x := fun e => h (List.mem_append.2 (Or.inr (e ▸ hy)))
    simp [allBut, this]
  simp only [fires, Bool.and_eq_true, List.all_eq_true]
  refine ⟨⟨?_, hg⟩, hp⟩
  cases r.src <;> rfl

/-- For every unchecked argument there is an object that knows all else, lists the method, and fails to calculate it. The list of unchecked arguments is therefore complete and minimal. -/
theorem C112_unchecked_fails (c : Cls) (r : Rule) (hr : r ∈ rules c) (x : Attr) (hx : x ∈ unchecked c r.method) :
    r.method ∈ load c (allBut x) ∧ (∀ y ≠ x, (allBut x).args y ≠ none) ∧ ¬ Calculable c (allBut x) r.method := by
  obtain ⟨_, h2⟩ := audit c r hr
  refine ⟨mem_load.2 ⟨r, hr, fires_allBut (h2 x hx).2, rfl⟩, fun y hy => by simp [allBut, hy], fun h => h x (h2 x hx).1 (by simp [allBut])⟩

/-- A class keeps its promise for a method precisely if nothing is unchecked. -/
theorem C112_exact (c : Cls) (m : Method) (hm : m ∈ (rules c).map Rule.method) : (∀ i, m ∈ load c i → Calculable c i m) ↔ unchecked c m = [] := by
  obtain ⟨r, hr, rfl⟩ := List.mem_map.1 hm
  constructor
  · intro h
    by_contra hne
    obtain ⟨x, hx⟩ := List.exists_mem_of_ne_nil _ hne
    obtain ⟨h1, _, h3⟩ := C112_unchecked_fails c r hr x hx
    exact h3 (h _ h1)
  · intro h i hi
    exact (C112_available c i _ hi).2 (by simp [h])

/-- The classes in which every listed method can be calculated. -/
theorem C112_sound_classes : ∀ c ∈ [Cls.psat, .psub, .vsupP, .vgasP, .vsol, .muliq, .mugas, .mugasP, .kliqP, .kgas, .cpg, .cps, .eps], ∀ i, ∀ m ∈ load c i, Calculable c i m := by
  intro c hc i m hm
  obtain ⟨r, hr, hf, rfl⟩ := mem_load.1 hm
  refine (C112_exact c r.method (List.mem_map_of_mem hr)).2 ?_ i hm
  clear hm hf
  revert r
  simp only [List.mem_cons, List.not_mem_nil, or_false] at hc
  rcases hc with rfl | rfl | rfl | rfl | rfl | rfl | rfl | rfl | rfl | rfl | rfl | rfl | rfl <;> decide

/-- Argument lists to try things on. -/
def given (l : List Attr) : Input := ⟨fun y => if y ∈ l then some 1 else none, false, fun _ => false, false⟩

/-- Liquid thermal conductivity with boiling point, critical constants and acentric factor: none of the three methods offered can be calculated, for want of the molar mass. -/
theorem C112_conductivity_fails : load .kliq (given [.Tb, .Tc, .Pc, .omega]) = [.gharagheiziL, .nicola, .satoRiedel] ∧
    ∀ m ∈ load .kliq (given [.Tb, .Tc, .Pc, .omega]), ¬ Calculable .kliq (given [.Tb, .Tc, .Pc, .omega]) m := by
  have h : load .kliq (given [.Tb, .Tc, .Pc, .omega]) = [.gharagheiziL, .nicola, .satoRiedel] := by decide +kernel
  refine ⟨h, ?_⟩
  rw [h]
  intro m hm hc
  refine hc .MW ?_ (by simp [given])
  simp only [List.mem_cons, List.not_mem_nil, or_false] at hm
  rcases hm with rfl | rfl | rfl <;> decide

/-- The default is available, nothing ranked before it is, and there is a default whenever anything is available. -/
theorem C112_default (c : Cls) (i : Input) : (∀ m, default c i = some m → m ∈ load c i ∧ ∃ l l', ranked c = l ++ m :: l' ∧ ∀ k ∈ l, k ∉ load c i) ∧
    (default c i = none ↔ load c i = []) := by
  constructor
  · intro m h
    obtain ⟨h1, l, l', h2, h3⟩ := List.find?_eq_some_iff_append.1 h
    exact ⟨by simpa using h1, l, l', h2, fun k hk => by simpa using h3 k hk⟩
  · rw [default, List.find?_eq_none]
    constructor
    · intro h
      by_contra hne
      obtain ⟨m, hm⟩ := List.exists_mem_of_ne_nil _ hne
      obtain ⟨r, hr, _, rfl⟩ := mem_load.1 hm
      exact h _ ((C112_ranked c).2 r hr) (by simpa using hm)
    · intro h m _; simp [h]

/-- The default of a class without unchecked arguments can be calculated. -/
theorem C112_default_partial (c : Cls) (hc : c ∈ [Cls.psat, .psub, .vsupP, .vgasP, .vsol, .muliq, .mugas, .mugasP, .kliqP, .kgas, .cpg, .cps, .eps]) (i : Input) (m : Method)
    (h : default c i = some m) : Calculable c i m := C112_sound_classes c hc i m ((C112_default c i).1 m h).1

/-- The default method may be one that cannot be calculated while a lower ranked one can: the enthalpy of vaporisation without a vapour pressure, the compressed liquid's volume and viscosity
without one, and the gas's thermal conductivity under pressure without a molar volume. -/
theorem C112_default_fails :
    (default .hvap (given [.Tb, .Tc, .Pc]) = some .clapeyron ∧ ¬ Calculable .hvap (given [.Tb, .Tc, .Pc]) .clapeyron ∧
      Method.riedel ∈ load .hvap (given [.Tb, .Tc, .Pc]) ∧ Calculable .hvap (given [.Tb, .Tc, .Pc]) .riedel) ∧
    (default .vliqP (given [.Tc, .Pc, .omega]) = some .costaldCompressed ∧ ¬ Calculable .vliqP (given [.Tc, .Pc, .omega]) .costaldCompressed ∧
      Method.neglectP ∈ load .vliqP (given [.Tc, .Pc, .omega])) ∧
    (default .muliqP (given [.Tc, .Pc, .omega]) = some .lucas ∧ ¬ Calculable .muliqP (given [.Tc, .Pc, .omega]) .lucas ∧ Method.neglectP ∈ load .muliqP (given [.Tc, .Pc, .omega])) ∧
    (default .kgasP (given [.MW, .Tc, .Vc, .Zc, .omega, .Cpgm]) = some .eliHanleyDense ∧ ¬ Calculable .kgasP (given [.MW, .Tc, .Vc, .Zc, .omega, .Cpgm]) .eliHanleyDense ∧
      Method.neglectP ∈ load .kgasP (given [.MW, .Tc, .Vc, .Zc, .omega, .Cpgm])) := by
  refine ⟨⟨by decide +kernel, fun h => h .Psat (by decide) (by simp [given]), by decide +kernel, ?_⟩, ⟨by decide +kernel, fun h => h .Psat (by decide) (by simp [given]), by decide +kernel⟩,
    ⟨by decide +kernel, fun h => h .Psat (by decide) (by simp [given]), by decide +kernel⟩, ⟨by decide +kernel, fun h => h .Vmg (by decide) (by simp [given]), by decide +kernel⟩⟩
  intro x hx
  simp only [uses, List.mem_cons, List.not_mem_nil, or_false] at hx
  rcases hx with rfl | rfl | rfl <;> simp [given]

/-- A value of zero counts as missing: with an acentric factor of zero the methods based on it are not offered although they could be calculated. -/
theorem C112_zero_fails : ∃ i : Input, (∀ x ∈ uses .psat .leeKesler, i.args x ≠ none) ∧ Method.leeKesler ∉ load .psat i ∧ Calculable .psat i .leeKesler ∧
    load .psat i = [] ∧ load .psat { i with args := fun x => if x = .omega then some (1 / 1000) else i.args x } ≠ [] := by
  refine ⟨⟨fun x => if x = .omega then some 0 else if x ∈ [Attr.Tc, .Pc] then some 1 else none, false, fun _ => false, false⟩, ?_, by decide +kernel, ?_, by decide +kernel, by decide +kernel⟩ <;>
  · intro x hx
    simp only [uses, List.mem_cons, List.not_mem_nil, or_false] at hx
    rcases hx with rfl | rfl | rfl <;> simp

/-- Without zeros among the arguments, a method that depends on arguments alone is offered exactly if the tested arguments are known. -/
theorem C112_nonzero_partial (c : Cls) (i : Input) (h0 : ∀ x, i.args x ≠ some 0) (r : Rule) (hr : r ∈ rules c) (hs : r.src = .args) :
    r.method ∈ load c i ↔ ∀ x ∈ r.guard ++ r.present, i.args x ≠ none := by
  have hnd := (C112_ranked c).1
  constructor
  · intro h
    obtain ⟨r', hr', hf, e⟩ := mem_load.1 h
    have : r' = r := List.inj_on_of_nodup_map hnd hr' hr e
    subst this
    exact fun x hx => fires_given hf hx
  · intro h
    refine mem_load.2 ⟨r, hr, ?_, rfl⟩
    simp only [fires, hs, Bool.and_eq_true, List.all_eq_true, true_and]
    constructor
    · intro x hx
      obtain ⟨v, hv⟩ := Option.ne_none_iff_exists'.1 (h x (List.mem_append.2 (Or.inl hx)))
      exact truthy_iff.2 ⟨v, hv, fun e => h0 x (e ▸ hv)⟩
    · intro x hx
      obtain ⟨v, hv⟩ := Option.ne_none_iff_exists'.1 (h x (List.mem_append.2 (Or.inr hx)))
      simp [hv]

/-- Supplying more arguments, or data for more methods, never removes a method. -/
theorem C112_monotone (c : Cls) (i j : Input) (ha : ∀ x, i.args x = none ∨ j.args x = i.args x) (hl : i.load = true → j.load = true) (hrow : ∀ m, i.row m = true → j.row m = true)
    (hw : i.water = true → j.water = true) (m : Method) (h : m ∈ load c i) : m ∈ load c j := by
  obtain ⟨r, hr, hf, rfl⟩ := mem_load.1 h
  refine mem_load.2 ⟨r, hr, ?_, rfl⟩
  simp only [fires, Bool.and_eq_true, List.all_eq_true] at hf ⊢
  obtain ⟨⟨h1, h2⟩, h3⟩ := hf
  refine ⟨⟨?_, ?_⟩, ?_⟩
  · revert h1
    cases r.src <;> simp only [Bool.and_eq_true]
    · exact fun _ => trivial
    · exact fun h => ⟨hl h.1, hrow _ h.2⟩
    · exact hrow _
    · exact hw
    · exact fun h => ⟨hl h.1, hw h.2⟩
  · intro x hx
    obtain ⟨v, hv, h0⟩ := truthy_iff.1 (h2 x hx)
    rcases ha x with e | e
    · simp [e] at hv
    · exact truthy_iff.2 ⟨v, by rw [e, hv], h0⟩
  · intro x hx
    have := h3 x hx
    rcases ha x with e | e
    · simp [e] at this
    · rw [e]; exact this

example : Method.leeKesler ∈ load .psat (given [.Tc, .Pc, .omega]) ∧ Method.leeKesler ∈ load .psat (given [.Tb, .Tc, .Pc, .omega]) ∧ Method.boilingCritical ∉ load .psat (given [.Tc, .Pc, .omega]) ∧
    Method.boilingCritical ∈ load .psat (given [.Tb, .Tc, .Pc, .omega]) ∧ default .psat (given [.Tb, .Tc, .Pc, .omega]) = some .ambroseWalton ∧ Calculable .psat (given [.Tc, .Pc, .omega]) .eos ∧
    ¬ Calculable .psat (given [.Tc, .Pc]) .eos := by
  refine ⟨by decide +kernel, by decide +kernel, by decide +kernel, by decide +kernel, by decide +kernel, ?_, fun h => h .omega (by decide) (by simp [given])⟩
  intro x hx
  simp only [uses, List.mem_cons, List.not_mem_nil, or_false] at hx
  rcases hx with rfl | rfl | rfl <;> simp [given]

/-- With `load_data=False` the tables play no part, but for the viscosity of liquids and the volume of supercritical ones. -/
theorem C112_no_data_partial (c : Cls) (hc : c ≠ .muliq ∧ c ≠ .vsupP) (i : Input) (hl : i.load = false) (row : Method → Bool) : load c { i with row := row } = load c i := by
  have hs : ∀ r ∈ rules c, r.src ≠ .tableAlways := by
    obtain ⟨h1, h2⟩ := hc
    cases c <;> first | exact absurd rfl h1 | exact absurd rfl h2 | decide
  unfold load
  congr 1
  refine List.filter_congr fun r hr => ?_
  have := hs r hr
  unfold fires
  revert this
  cases r.src <;> simp [hl]

/-- The VDI correlation of liquid viscosity is loaded all the same (viscosity.py 568: the test stands outside the block), and so is CoolProp for supercritical liquids. -/
theorem C112_no_data_fails : ∃ i : Input, i.load = false ∧ Method.vdiPpds ∈ load .muliq i ∧ default .muliq i = some .vdiPpds ∧ Method.coolprop ∈ load .vsupP i ∧
    load .muliq { i with row := fun _ => false } = [] :=
  ⟨⟨fun _ => none, false, fun _ => true, false⟩, rfl, by decide +kernel, by decide +kernel, by decide +kernel, by decide +kernel⟩

open Method in
/-- The lists of method names exported by the modules (`vapor_pressure_methods` and so on), again without the fits kept in files. -/
def exported : Cls → List Method
  | .psat => [iapws, wagnerMcgarry, wagnerPoling, antoineExtended, perry8E, vdiPpds, coolprop, antoinePoling, vdiTabular, antoineWebbook, alcock, landolt, ambroseWalton, leeKesler, edalat, eos,
      boilingCritical, sanjari]
  | .psub => [psubClapeyron, alcock, iapws, landolt]
  | .hvap => [perry8E, vdiPpds, coolprop, vdiTabular, morganKobayashi, sivaraman, velasco, pitzer, alibakhshi, crcHvapTb, crcHvap298, gharagheiziHvap298, clapeyron, riedel, chen, vetere, liu]
  | .vgasP => [coolprop, eos, crcVirial, tsonopoulosExtended, tsonopoulos, abbott, pitzerCurl, ideal]
  | .vsupP => [coolprop, eos]
  | .vsol => [goodman, crcInorgS]
  | .kgas => [coolprop, perry8E, vdiPpds, vdiTabular, gharagheiziG, dippr9B, chung, eliHanley, euckenMod, eucken, bahadori]
  | .cpg => [coolprop, trcig, webbookShomate, polingPoly, lastovkaShaw, crcstd, polingConst, joback, vdiTabular]
  | .cpl => [zabranskySpline, zabranskyQuasi, webbookShomate, vdiTabular, rowlinsonPoling, rowlinsonBondi, coolprop, dadgostarShaw, polingConst, crcstd]
  | .cps => [webbookShomate, perry151, crcstd, lastovkaS]
  | .eps => [crc, crcConstant, iapws]
  | c => ranked c

/-- The exported lists name exactly the methods that can become available, but for the heat capacities. -/
theorem C112_exported_partial (c : Cls) (hc : c ∉ [Cls.cpg, .cpl, .cps]) (m : Method) : m ∈ exported c ↔ m ∈ (rules c).map Rule.method := by
  have key : (∀ m ∈ exported c, m ∈ (rules c).map Rule.method) ∧ (∀ m ∈ (rules c).map Rule.method, m ∈ exported c) := by
    revert hc; cases c <;> decide
  exact ⟨key.1 m, key.2 m⟩

/-- The JANAF tables, available for all three heat capacities, are in none of the exported lists; with them all the names are there. -/
theorem C112_exported_fails : ∀ c ∈ [Cls.cpg, .cpl, .cps], Method.janaf ∉ exported c ∧ ∀ m, (m ∈ exported c ∨ m = .janaf) ↔ m ∈ (rules c).map Rule.method := by
  intro c hc
  have key : Method.janaf ∉ exported c ∧ (∀ m ∈ exported c ++ [.janaf], m ∈ (rules c).map Rule.method) ∧ (∀ m ∈ (rules c).map Rule.method, m ∈ exported c ++ [.janaf]) := by
    simp only [List.mem_cons, List.not_mem_nil, or_false] at hc
    rcases hc with rfl | rfl | rfl <;> decide
  refine ⟨key.1, fun m => ⟨fun h => key.2.1 m (by simpa using h), fun h => by simpa using key.2.2 m h⟩⟩

/-! ## Temperature limits -/

/-- Value of an argument that has been tested. -/
def val (i : Input) (x : Attr) : ℚ := (i.args x).getD 0

/-- `T_limits` of the methods that depend on arguments (the same places as `rules`); `none` if no limits are recorded. `LAKSHMI_PRASAD` has an irrational limit and stands below. The heat capacity
at the boiling point in the limit of `ALEEM` is per mass; `Cpl` here. -/
def limits (c : Cls) (m : Method) (i : Input) : Option (ℚ × ℚ) :=
  let Tc := val i .Tc
  match c, m with
  | .psat, .boilingCritical | .psat, .leeKesler | .psat, .ambroseWalton | .psat, .sanjari | .psat, .edalat => some (1 / 100, Tc)
  | .psat, .eos => some (Tc / 10, Tc)
  | .psub, .psubClapeyron => some (1, val i .Tt * (3 / 2))
  | .hvap, .alibakhshi => some (Tc * (3 / 10), max (Tc - 100) 0)
  | .hvap, .morganKobayashi | .hvap, .sivaraman | .hvap, .velasco | .hvap, .pitzer | .hvap, .clapeyron | .hvap, .riedel | .hvap, .chen | .hvap, .vetere | .hvap, .liu => some (1 / 10000, Tc)
  | .hvap, .crcHvap298 | .hvap, .gharagheiziHvap298 => if (i.args .Tc).isSome then some (Tc / 1000, Tc) else some (29815 / 100, 29815 / 100)
  | .hsub, .webbookHsub | .hsub, .crcHfusHvapTm => if (i.args .Tm).isSome then some (val i .Tm, val i .Tm) else some (29815 / 100, 29815 / 100)
  | .hsub, .gharagheiziHsub298 => some (29815 / 100, 29815 / 100)
  | .vliq, .yenWoods | .vliq, .rackett | .vliq, .townsendHales | .vliq, .htcostald | .vliq, .mmsnm0 | .vliq, .campbellThodos | .vliq, .htcostaldFit | .vliq, .rackettFit | .vliq, .mmsnm0Fit =>
    some (0, Tc)
  | .vliq, .yamadaGunn | .vliq, .bhirud => some (35 / 100 * Tc, Tc)
  | .vliq, .eos => some (2 / 10 * Tc, Tc)
  | .vsol, .goodman => some (1 / 10000, val i .Tt)
  | .muliq, .letsouStiel => some (Tc / 4, Tc)
  | .muliq, .przedzieckiSridhar => some (val i .Tm, Tc)
  | .mugas, .yoonThodos | .mugas, .stielThodos => some (1 / 1000, 5000)
  | .mugas, .gharagheizi => some (20, 2000)
  | .mugas, .lucasGas => some (1 / 1000, 1000)
  | .kliq, .bahadori => some (1 / 1000, 10000)
  | .kliq, .sheffyJohnson => some (1 / 1000, val i .Tm + 79365 / 100)
  | .kliq, .gharagheiziL => some (val i .Tb, if (i.args .Tc).isSome then Tc else 10000)
  | .kliq, .nicola => some (Tc / 100, Tc)
  | .kliq, .satoRiedel => some (val i .Tb / 100, Tc - 1 / 10)
  | .kliq, .nicolaOriginal => some (Tc / 100, Tc - 1 / 10)
  | .kgas, .gharagheiziG => some (1 / 1000, 3000)
  | .kgas, .dippr9B | .kgas, .chung | .kgas, .euckenMod | .kgas, .eucken | .kgas, .bahadori => some (1 / 100, 10000)
  | .kgas, .eliHanley => some (Tc * (4 / 10), 10000)
  | .sigma, .miqueu | .sigma, .brockBird | .sigma, .sastriRao => some (0, Tc)
  | .sigma, .pitzerSigma | .sigma, .zuoStenby => some (1 / 10 ^ 10, Tc)
  | .sigma, .aleem =>
    let top := val i .Tb + val i .HvapTb / val i .Cpl
    some (0, if truthy i.args .Tc then min Tc top else top)
  | .cpg, .lastovkaShaw => some (1 / 1000, 100000)
  | .cpl, .rowlinsonPoling | .cpl, .rowlinsonBondi => some (3 / 10 * Tc, Tc - 1 / 10)
  | .cpl, .dadgostarShaw => some (1 / 1000, if (i.args .Tc).isSome then Tc else 10000)
  | .cps, .lastovkaS => some (1, 10000)
  | _, _ => none

/-- The temperature-dependent classes. -/
def tClasses : List Cls := [.psat, .psub, .hvap, .hsub, .vliq, .vsol, .muliq, .mugas, .kliq, .kgas, .sigma, .cpg, .cpl, .cps, .eps]

/-- Every temperature-dependent method that rests on arguments alone has recorded limits (the one exception is the one treated below). -/
theorem C112_limits_recorded (c : Cls) (hc : c ∈ tClasses) (r : Rule) (hr : r ∈ rules c) (hs : r.src = .args) (hl : ¬ (c = .kliq ∧ r.method = .lakshmiPrasad)) (i : Input) :
    (limits c r.method i).isSome := by
  have h : ∀ c ∈ tClasses, ∀ r ∈ rules c, r.src = .args → (c = .kliq ∧ r.method = .lakshmiPrasad) ∨ r.method ∈ (rules c).map Rule.method := fun c _ r hr _ => Or.inr (List.mem_map_of_mem hr)
  revert r
  simp only [tClasses, List.mem_cons, List.not_mem_nil, or_false] at hc
  rcases hc with rfl | rfl | rfl | rfl | rfl | rfl | rfl | rfl | rfl | rfl | rfl | rfl | rfl | rfl | rfl <;>
  · simp only [rules, a, t, List.forall_mem_cons, List.forall_mem_nil]
    simp [limits]

/-- The sublimation enthalpy from the heat capacities has no limits recorded, although the constant it starts from has. -/
theorem C112_limits_fails : ∃ i : Input, Method.gharagheiziHsub ∈ load .hsub i ∧ (∀ j, limits .hsub .gharagheiziHsub j = none) ∧ limits .hsub .gharagheiziHsub298 i = some (29815 / 100, 29815 / 100) :=
  ⟨⟨fun _ => some 1, true, fun _ => true, false⟩, by decide +kernel, fun _ => rfl, rfl⟩

/-- A plausible set of arguments: positive temperatures in the right order. -/
structure Plausible (i : Input) : Prop where
  Tc : 10 ≤ val i .Tc
  Tt : 1 ≤ val i .Tt
  Tm : 0 < val i .Tm
  TmTc : val i .Tm ≤ val i .Tc
  Tb : 0 < val i .Tb
  TbTc : val i .Tb ≤ val i .Tc - 1
  Tc4 : val i .Tc ≤ 10000
  Hvap : 0 ≤ val i .HvapTb
  Cpl : 0 < val i .Cpl

/-- With plausible arguments no temperature range is empty, but for one of the methods for the enthalpy of vaporisation. -/
theorem C112_range_partial (c : Cls) (m : Method) (i : Input) (hp : Plausible i) (hm : m ≠ .alibakhshi) (lo hi : ℚ) (h : limits c m i = some (lo, hi)) : 0 ≤ lo ∧ lo ≤ hi := by
  obtain ⟨h1, h2, h3, h4, h5, h6, h7, h8, h9⟩ := hp
  have hq : 0 ≤ val i .HvapTb / val i .Cpl := div_nonneg h8 h9.le
  revert h
  unfold limits
  dsimp only
  split <;> intro h
  all_goals first
    | exact absurd rfl hm
    | (simp only [Option.some.injEq, Prod.mk.injEq] at h; obtain ⟨rfl, rfl⟩ := h; constructor <;> linarith)
    | (split_ifs at h <;> simp only [Option.some.injEq, Prod.mk.injEq] at h <;> obtain ⟨rfl, rfl⟩ := h <;> constructor <;> linarith)
    | (simp only [Option.some.injEq, Prod.mk.injEq] at h; obtain ⟨rfl, rfl⟩ := h; constructor <;> [norm_num; (split_ifs <;> first | linarith | exact le_min (by linarith) (by linarith))])
    | (simp only [Option.some.injEq, Prod.mk.injEq] at h; obtain ⟨rfl, rfl⟩ := h; constructor <;> [linarith; (split_ifs <;> linarith)])
    | exact absurd h (by simp)

/-- The range of `ALIBAKHSHI` is empty precisely below a critical temperature of 1000/7 K (nitrogen and carbon monoxide are below), so that the correlation is only ever extrapolated there. -/
theorem C112_alibakhshi (i : Input) (h : 0 < val i .Tc) : ∃ lo hi, limits .hvap .alibakhshi i = some (lo, hi) ∧ (hi < lo ↔ val i .Tc < 1000 / 7) := by
  refine ⟨_, _, rfl, ?_⟩
  constructor
  · intro h'
    have := le_max_left (val i .Tc - 100) 0
    linarith
  · intro h'
    exact max_lt (by linarith) (by linarith)

/-- Methods for saturation properties stop at the critical temperature when it is known. -/
theorem C112_up_to_Tc (c : Cls) (hc : c ∈ [Cls.psat, .hvap, .vliq, .muliq, .sigma]) (m : Method) (i : Input) (hT : 0 < val i .Tc) (lo hi : ℚ) (h : limits c m i = some (lo, hi)) :
    hi ≤ val i .Tc := by
  have hs : (i.args .Tc).isSome := by
    by_contra hn
    rw [Bool.not_eq_true, Option.isSome_eq_false_iff, Option.isNone_iff_eq_none] at hn
    simp [val, hn] at hT
  have ht : truthy i.args .Tc = true := by
    obtain ⟨v, hv⟩ := Option.isSome_iff_exists.1 hs
    refine truthy_iff.2 ⟨v, hv, ?_⟩
    simp [val, hv] at hT
    exact hT.ne'
  simp only [List.mem_cons, List.not_mem_nil, or_false] at hc
  rcases hc with rfl | rfl | rfl | rfl | rfl <;> cases m <;> simp only [limits, hs, ht, if_true, Option.some.injEq, Prod.mk.injEq, reduceCtorEq] at h <;> obtain ⟨-, rfl⟩ := h
  all_goals first
    | exact le_rfl
    | exact max_le (by linarith) hT.le
    | exact min_le_left _ _

/-- Arguments of about the size of those of a light hydrocarbon. -/
def sample : Input := ⟨fun x => match x with | .Tc => some 400 | .Tt => some 100 | .Tm => some 100 | .Tb => some 300 | .HvapTb => some 300000 | .Cpl => some 2000 | _ => some 1, false, fun _ => false, false⟩

example : Plausible sample ∧ limits .sigma .aleem sample = some (0, 400) ∧ limits .kliq .gharagheiziL sample = some (300, 400) ∧ limits .hvap .alibakhshi sample = some (120, 300) ∧
    limits .muliq .przedzieckiSridhar sample = some (100, 400) := by
  refine ⟨⟨?_, ?_, ?_, ?_, ?_, ?_, ?_, ?_, ?_⟩, ?_, ?_, ?_, ?_⟩ <;> (simp [sample, limits, val, truthy]; try norm_num)

/-! ## Limits that are zeros of the correlation -/

/-- `Lakshmi_Prasad` (documented formula). -/
noncomputable def lakshmiPrasad (T M : ℝ) : ℝ := 0.0655 - 0.0005 * T + (1.3855 - 0.00197 * T) / √M

/-- Its upper limit (`thermal_conductivity.py` 441). -/
noncomputable def lakshmiPrasadMax (M : ℝ) : ℝ := 50 * (131 * √M + 2771) / (50 * √M + 197)

/-- The limit is the temperature at which the correlation vanishes, and below it the value is positive. -/
theorem C112_lakshmi_prasad (T M : ℝ) (hM : 0 < M) : 0 < lakshmiPrasad T M ↔ T < lakshmiPrasadMax M := by
  have hs : 0 < √M := Real.sqrt_pos.2 hM
  unfold lakshmiPrasad lakshmiPrasadMax
  generalize √M = s at hs
  rw [lt_div_iff₀ (by positivity)]
  have e : 0.0655 - 0.0005 * T + (1.3855 - 0.00197 * T) / s = (50 * (131 * s + 2771) - T * (50 * s + 197)) / (100000 * s) := by
    field_simp; ring
  rw [e]
  constructor
  · intro h
    have := (div_pos_iff_of_pos_right (by positivity : (0 : ℝ) < 100000 * s)).1 h
    linarith
  · intro h
    exact div_pos (by linarith) (by positivity)

/-- The temperature factor of `Sheffy_Johnson` (documented formula; the other factors are positive). -/
def sheffyJohnson {F : Type*} [Field F] (T Tm : F) : F := 1 - 0.00126 * (T - Tm)

/-- Up to its limit the factor is positive, and it vanishes less than a hundredth of a kelvin above. -/
theorem C112_sheffy_johnson (i : Input) (T lo hi : ℚ) (h : limits .kliq .sheffyJohnson i = some (lo, hi)) :
    (T ≤ hi → 0 < sheffyJohnson T (val i .Tm)) ∧ (hi + 1 / 100 ≤ T → sheffyJohnson T (val i .Tm) < 0) := by
  simp only [limits, Option.some.injEq, Prod.mk.injEq] at h
  obtain ⟨rfl, rfl⟩ := h
  unfold sheffyJohnson
  constructor <;> intro h <;> norm_num <;> linarith

/-- The bracket of `Aleem` (documented formula; the other factors are positive): latent heat at the boiling point plus heat capacity times the distance to it. -/
def aleem {F : Type*} [Field F] (T Tb Hvap Cpl : F) : F := Hvap + Cpl * (Tb - T)

/-- With a constant heat capacity the value is not negative within the limits of `ALEEM`, and without a critical temperature it vanishes at the upper one. -/
theorem C112_aleem_partial (i : Input) (hC : 0 < val i .Cpl) (T lo hi : ℚ) (h : limits .sigma .aleem i = some (lo, hi)) :
    (T ≤ hi → 0 ≤ aleem T (val i .Tb) (val i .HvapTb) (val i .Cpl)) ∧ (i.args .Tc = none → aleem hi (val i .Tb) (val i .HvapTb) (val i .Cpl) = 0) := by
  simp only [limits, Option.some.injEq, Prod.mk.injEq] at h
  obtain ⟨-, rfl⟩ := h
  unfold aleem
  constructor
  · intro hT
    have h1 : T ≤ val i .Tb + val i .HvapTb / val i .Cpl := by
      split_ifs at hT
      · exact hT.trans (min_le_right _ _)
      · exact hT
    have h2 : val i .Cpl * (val i .HvapTb / val i .Cpl) = val i .HvapTb := mul_div_cancel₀ _ hC.ne'
    nlinarith [mul_le_mul_of_nonneg_left h1 hC.le]
  · intro hn
    rw [if_neg (by simp [truthy, hn])]
    field_simp
    ring

/-- The correlation is evaluated with the heat capacity at `T`, the limit made with that at the boiling point: if the heat capacity grows, the value is negative inside the limits. -/
theorem C112_aleem_fails : ∃ (Cp : ℚ → ℚ) (Tb H T : ℚ), (∀ x y, x ≤ y → Cp x ≤ Cp y) ∧ Tb ≤ T ∧ T ≤ Tb + H / Cp Tb ∧ 0 < Cp Tb ∧ aleem T Tb H (Cp T) < 0 := by
  refine ⟨fun x => if x < 350 then 2000 else 3000, 300, 300000, 440, ?_, by norm_num, by norm_num, by norm_num, by norm_num [aleem]⟩
  intro x y h
  dsimp only
  split_ifs <;> linarith

example : ∃ lo hi, limits .sigma .aleem { sample with args := fun x => if x = .Tc then none else sample.args x } = some (lo, hi) ∧ hi = 450 ∧ aleem hi 300 300000 (2000 : ℚ) = 0 := by
  refine ⟨0, 450, ?_, rfl, by norm_num [aleem]⟩
  simp [limits, sample, val, truthy]
  norm_num

/-- `Jasper` (documented formula) with its upper limit when the table has none (`interface.py` 354-356). -/
def jasper (T a b : ℚ) : ℚ := (a - b * (T - 27315 / 100)) / 1000

/-- `interface.py` 354-358: a missing or equal upper limit is replaced by the zero, a missing lower one by 0 K. -/
def jasperLimits (a b : ℚ) (Tmin Tmax : Option ℚ) : ℚ × ℚ :=
  let top := match Tmax with
    | none => a / b + 27315 / 100
    | some x => if Tmin = some x then a / b + 27315 / 100 else x
  (Tmin.getD 0, top)

/-- Where the table does not give an upper limit, the surface tension is not negative in the limits and vanishes at the upper one. -/
theorem C112_jasper (a b : ℚ) (hb : 0 < b) (Tmin Tmax : Option ℚ) (h : Tmax = none ∨ Tmax = Tmin) :
    jasper (jasperLimits a b Tmin Tmax).2 a b = 0 ∧ (∀ T ≤ (jasperLimits a b Tmin Tmax).2, 0 ≤ jasper T a b) ∧ (jasperLimits a b Tmin Tmax).1 = Tmin.getD 0 := by
  have e : (jasperLimits a b Tmin Tmax).2 = a / b + 27315 / 100 := by
    rcases h with rfl | rfl
    · rfl
    · cases Tmax <;> simp [jasperLimits]
  have hd : b * (a / b) = a := mul_div_cancel₀ _ hb.ne'
  rw [e]
  refine ⟨?_, fun T hT => ?_, rfl⟩
  · unfold jasper; ring_nf; ring_nf at hd; linarith
  · unfold jasper
    have := mul_le_mul_of_nonneg_left hT hb.le
    refine div_nonneg ?_ (by norm_num)
    linarith

/-- A given upper limit is kept. -/
theorem C112_jasper_kept (a b x : ℚ) (Tmin : Option ℚ) (h : Tmin ≠ some x) : jasperLimits a b Tmin (some x) = (Tmin.getD 0, x) := by
  simp [jasperLimits, h]

example : jasperLimits 30 (1 / 10) (some 283) (some 283) = (283, 57315 / 100) ∧ jasper 298 30 (1 / 10) = 27515 / 1000000 := by
  constructor
  · simp [jasperLimits]; norm_num
  · norm_num [jasper]

end Verif.Offered
