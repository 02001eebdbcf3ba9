import Mathlib.Analysis.SpecialFunctions.Pow.Real
import Mathlib.Algebra.BigOperators.Group.List.Basic
import Mathlib.Data.List.Perm.Basic
import Mathlib.Tactic.NormNum
import Mathlib.Tactic.Linarith
import Mathlib.Tactic.IntervalCases
import Mathlib.Tactic.Positivity
import Mathlib.Tactic.FieldSimp
import Mathlib.Tactic.Ring

/-!
# Estimates from groups (`thermo/group_contribution/joback.py`, `fedors.py`, `wilson_jasperson.py`, `bondi.py`)

C99: the sums behind the group contribution estimates, when an estimate is refused, the order of the dictionary,
stored coefficients, the range in which critical constants are meaningful, unit conversions.

A dictionary of counts is the list of its items. Numbers are rationals (reals where `exp` or a power occurs).
What RDKit finds in a molecule (atoms, rings, bonds, matches of SMARTS) enters as data. A value `none` of an
estimate is the `None` the code returns from its bare `except`.
-/

namespace Verif.GroupEstimates

/-- `counts.items()`. -/
abbrev Counts := List (ℕ × ℤ)

/-- `JobackGroupContribution` (joback.py 178-227), its regressed values. -/
structure Group where
  Tc : Option ℚ
  Pc : Option ℚ
  Vc : Option ℚ
  Tb : Option ℚ
  Tm : Option ℚ
  Hform : Option ℚ
  Gform : Option ℚ
  Cpa : Option ℚ
  Cpb : Option ℚ
  Cpc : Option ℚ
  Cpd : Option ℚ
  Hfus : Option ℚ
  Hvap : Option ℚ
  mua : Option ℚ
  mub : Option ℚ

/-- `JOBACK_GROUPS` (joback.py 230-272), generated from the source text. -/
def joback : ℕ → Option Group
  | 1 => some ⟨some 0.0141, some (-0.0012), some 65.0, some 23.58, some (-5.1), some (-76.45), some (-43.96), some 19.5,
      some (-0.00808), some 0.000153, some (-9.67e-08), some 0.908, some 2.373, some 548.29, some (-1.719)⟩
  | 2 => some ⟨some 0.0189, some 0.0, some 56.0, some 22.88, some 11.27, some (-20.64), some 8.42, some (-0.909),
      some 0.095, some (-5.44e-05), some 1.19e-08, some 2.59, some 2.226, some 94.16, some (-0.199)⟩
  | 3 => some ⟨some 0.0164, some 0.002, some 41.0, some 21.74, some 12.64, some 29.89, some 58.36, some (-23.0),
      some 0.204, some (-0.000265), some 1.2e-07, some 0.749, some 1.691, some (-322.15), some 1.187⟩
  | 4 => some ⟨some 0.0067, some 0.0043, some 27.0, some 18.25, some 46.43, some 82.23, some 116.02, some (-66.2),
      some 0.427, some (-0.000641), some 3.01e-07, some (-1.46), some 0.636, some (-573.56), some 2.307⟩
  | 5 => some ⟨some 0.0113, some (-0.0028), some 56.0, some 18.18, some (-4.32), some (-9.63), some 3.77, some 23.6,
      some (-0.0381), some 0.000172, some (-1.03e-07), some (-0.473), some 1.724, some 495.01, some (-1.539)⟩
  | 6 => some ⟨some 0.0129, some (-0.0006), some 46.0, some 24.96, some 8.73, some 37.97, some 48.53, some (-8.0),
      some 0.105, some (-9.63e-05), some 3.56e-08, some 2.691, some 2.205, some 82.28, some (-0.242)⟩
  | 7 => some ⟨some 0.0117, some 0.0011, some 38.0, some 24.14, some 11.14, some 83.99, some 92.36, some (-28.1),
      some 0.208, some (-0.000306), some 1.46e-07, some 3.063, some 2.138, none, none⟩
  | 8 => some ⟨some 0.0026, some 0.0028, some 36.0, some 26.15, some 17.78, some 142.14, some 136.7, some 27.4,
      some (-0.0557), some 0.000101, some (-5.02e-08), some 4.72, some 2.661, none, none⟩
  | 9 => some ⟨some 0.0027, some (-0.0008), some 46.0, some 9.2, some (-11.18), some 79.3, some 77.71, some 24.5,
      some (-0.0271), some 0.000111, some (-6.78e-08), some 2.322, some 1.155, none, none⟩
  | 10 => some ⟨some 0.002, some 0.0016, some 37.0, some 27.38, some 64.32, some 115.51, some 109.82, some 7.87,
      some 0.0201, some (-8.33e-06), some 1.39e-09, some 4.151, some 3.302, none, none⟩
  | 11 => some ⟨some 0.01, some 0.0025, some 48.0, some 27.15, some 7.75, some (-26.8), some (-3.68), some (-6.03),
      some 0.0854, some (-8e-06), some (-1.8e-08), some 0.49, some 2.398, some 307.53, some (-0.798)⟩
  | 12 => some ⟨some 0.0122, some 0.0004, some 38.0, some 21.78, some 19.88, some 8.67, some 40.99, some (-20.5),
      some 0.162, some (-0.00016), some 6.24e-08, some 3.243, some 1.942, some (-394.29), some 1.251⟩
  | 13 => some ⟨some 0.0042, some 0.0061, some 27.0, some 21.32, some 60.15, some 79.72, some 87.88, some (-90.9),
      some 0.557, some (-0.0009), some 4.69e-07, some (-1.373), some 0.644, none, none⟩
  | 14 => some ⟨some 0.0082, some 0.0011, some 41.0, some 26.73, some 8.13, some 2.09, some 11.3, some (-2.14),
      some 0.0574, some (-1.64e-06), some (-1.59e-08), some 1.101, some 2.544, some 259.65, some (-0.702)⟩
  | 15 => some ⟨some 0.0143, some 0.0008, some 32.0, some 31.01, some 37.02, some 46.43, some 54.05, some (-8.25),
      some 0.101, some (-0.000142), some 6.78e-08, some 2.394, some 3.059, some (-245.74), some 0.912⟩
  | 16 => some ⟨some 0.0111, some (-0.0057), some 27.0, some (-0.03), some (-15.78), some (-251.92), some (-247.19), some 26.5,
      some (-0.0913), some 0.000191, some (-1.03e-07), some 1.398, some (-0.67), none, none⟩
  | 17 => some ⟨some 0.0105, some (-0.0049), some 58.0, some 38.13, some 13.55, some (-71.55), some (-64.31), some 33.3,
      some (-0.0963), some 0.000187, some (-9.96e-08), some 2.515, some 4.532, some 625.45, some (-1.814)⟩
  | 18 => some ⟨some 0.0133, some 0.0057, some 71.0, some 66.86, some 43.43, some (-29.48), some (-38.06), some 28.6,
      some (-0.0649), some 0.000136, some (-7.45e-08), some 3.603, some 6.582, some 738.91, some (-2.038)⟩
  | 19 => some ⟨some 0.0068, some (-0.0034), some 97.0, some 93.84, some 41.69, some 21.06, some 5.74, some 32.1,
      some (-0.0641), some 0.000126, some (-6.87e-08), some 2.724, some 9.52, some 809.55, some (-2.224)⟩
  | 20 => some ⟨some 0.0741, some 0.0112, some 28.0, some 92.88, some 44.45, some (-208.04), some (-189.2), some 25.7,
      some (-0.0691), some 0.000177, some (-9.88e-08), some 2.406, some 16.826, some 2173.72, some (-5.057)⟩
  | 21 => some ⟨some 0.024, some 0.0184, some (-25.0), some 76.34, some 82.83, some (-221.65), some (-197.37), some (-2.81),
      some 0.111, some (-0.000116), some 4.94e-08, some 4.49, some 12.499, some 3018.17, some (-7.314)⟩
  | 22 => some ⟨some 0.0168, some 0.0015, some 18.0, some 22.42, some 22.23, some (-132.22), some (-105.0), some 25.5,
      some (-0.0632), some 0.000111, some (-5.48e-08), some 1.188, some 2.41, some 122.09, some (-0.386)⟩
  | 23 => some ⟨some 0.0098, some 0.0048, some 13.0, some 31.22, some 23.05, some (-138.16), some (-98.22), some 12.2,
      some (-0.0126), some 6.03e-05, some (-3.86e-08), some 5.879, some 4.682, some 440.24, some (-0.953)⟩
  | 24 => some ⟨some 0.038, some 0.0031, some 62.0, some 76.75, some 61.2, some (-133.22), some (-120.5), some 6.45,
      some 0.067, some (-3.57e-05), some 2.86e-09, some 4.189, some 8.972, some 340.35, some (-0.35)⟩
  | 25 => some ⟨some 0.0284, some 0.0028, some 55.0, some 94.97, some 75.97, some (-164.5), some (-126.27), some 30.4,
      some (-0.0829), some 0.000236, some (-1.31e-07), some 0.0, some 6.645, none, none⟩
  | 26 => some ⟨some 0.0379, some 0.003, some 82.0, some 72.24, some 36.9, some (-162.03), some (-143.48), some 30.9,
      some (-0.0336), some 0.00016, some (-9.88e-08), some 3.197, some 9.093, some 740.92, some (-1.713)⟩
  | 27 => some ⟨some 0.0791, some 0.0077, some 89.0, some 169.09, some 155.5, some (-426.72), some (-387.87), some 24.1,
      some 0.0427, some 8.04e-05, some (-6.87e-08), some 11.051, some 19.537, some 1317.23, some (-2.578)⟩
  | 28 => some ⟨some 0.0481, some 0.0005, some 82.0, some 81.1, some 53.6, some (-337.92), some (-301.95), some 24.5,
      some 0.0402, some 4.02e-05, some (-4.52e-08), some 6.959, some 9.633, some 483.88, some (-0.966)⟩
  | 29 => some ⟨some 0.0143, some 0.0101, some 36.0, some (-10.5), some 2.08, some (-247.61), some (-250.83), some 6.82,
      some 0.0196, some 1.27e-05, some (-1.78e-08), some 3.624, some 5.909, some 675.24, some (-1.34)⟩
  | 30 => some ⟨some 0.0243, some 0.0109, some 38.0, some 73.23, some 66.89, some (-22.02), some 14.07, some 26.9,
      some (-0.0412), some 0.000164, some (-9.76e-08), some 3.515, some 10.788, none, none⟩
  | 31 => some ⟨some 0.0295, some 0.0077, some 35.0, some 50.17, some 52.66, some 53.47, some 89.39, some (-1.21),
      some 0.0762, some (-4.86e-05), some 1.05e-08, some 5.099, some 6.436, none, none⟩
  | 32 => some ⟨some 0.013, some 0.0114, some 29.0, some 52.82, some 101.51, some 31.65, some 75.61, some 11.8,
      some (-0.023), some 0.000107, some (-6.28e-08), some 7.49, some 6.93, none, none⟩
  | 33 => some ⟨some 0.0169, some 0.0074, some 9.0, some 11.74, some 48.84, some 123.34, some 163.16, some (-31.1),
      some 0.227, some (-0.00032), some 1.46e-07, some 4.703, some 1.896, none, none⟩
  | 34 => some ⟨some 0.0255, some (-0.0099), none, some 74.6, none, some 23.61, none, none,
      none, none, none, none, some 3.335, none, none⟩
  | 35 => some ⟨some 0.0085, some 0.0076, some 34.0, some 57.55, some 68.4, some 55.52, some 79.93, some 8.83,
      some (-0.00384), some 4.35e-05, some (-2.6e-08), some 3.649, some 6.528, none, none⟩
  | 36 => some ⟨none, none, none, some 83.08, some 68.91, some 93.7, some 119.66, some 5.69,
      some (-0.00412), some 0.000128, some (-8.88e-08), none, some 12.169, none, none⟩
  | 37 => some ⟨some 0.0496, some (-0.0101), some 91.0, some 125.66, some 59.89, some 88.43, some 89.22, some 36.5,
      some (-0.0733), some 0.000184, some (-1.03e-07), some 2.414, some 12.851, none, none⟩
  | 38 => some ⟨some 0.0437, some 0.0064, some 91.0, some 152.54, some 127.24, some (-66.57), some (-16.83), some 25.9,
      some (-0.00374), some 0.000129, some (-8.88e-08), some 9.679, some 16.738, none, none⟩
  | 39 => some ⟨some 0.0031, some 0.0084, some 63.0, some 63.56, some 20.09, some (-17.33), some (-22.99), some 35.3,
      some (-0.0758), some 0.000185, some (-1.03e-07), some 2.36, some 6.884, none, none⟩
  | 40 => some ⟨some 0.0119, some 0.0049, some 54.0, some 68.78, some 34.4, some 41.87, some 33.12, some 19.6,
      some (-0.00561), some 4.02e-05, some (-2.76e-08), some 4.13, some 6.817, none, none⟩
  | 41 => some ⟨some 0.0019, some 0.0051, some 38.0, some 52.1, some 79.93, some 39.1, some 27.76, some 16.7,
      some 0.00481, some 2.77e-05, some (-2.11e-08), some 1.557, some 5.984, none, none⟩
  | _ => none

/-- A table of groups. -/
abbrev Table := ℕ → Option Group

/-- `for group, count in counts.items(): tot += JOBACK_GROUPS[group].X*count` (joback.py 482-483 and its copies):
an unknown group is a `KeyError`, a missing value a `TypeError`. -/
def loop (val : ℕ → Option ℚ) : Counts → ℚ → Option ℚ
  | [], tot => some tot
  | (g, n) :: rest, tot =>
    match val g with
    | none => none
    | some v => loop val rest (tot + v * n)

/-- `Joback.Tb` (joback.py 480-487). -/
def Tb (t : Table) (c : Counts) : Option ℚ := (loop (fun g => (t g).bind (·.Tb)) c 0).map fun tot => 198.2 + tot

/-- `Joback.Tm` (joback.py 517-524). -/
def Tm (t : Table) (c : Counts) : Option ℚ := (loop (fun g => (t g).bind (·.Tm)) c 0).map fun tot => 122.5 + tot

/-- `Joback.Vc` (joback.py 648-655). -/
def Vc (t : Table) (c : Counts) : Option ℚ :=
  (loop (fun g => (t g).bind (·.Vc)) c 0).map fun tot => (17.5 + tot) * 1e-6

/-- `Joback.Hf` (joback.py 689-696). -/
def Hf (t : Table) (c : Counts) : Option ℚ :=
  (loop (fun g => (t g).bind (·.Hform)) c 0).map fun tot => (68.29 + tot) * 1000

/-- `Joback.Gf` (joback.py 730-737). -/
def Gf (t : Table) (c : Counts) : Option ℚ :=
  (loop (fun g => (t g).bind (·.Gform)) c 0).map fun tot => (53.88 + tot) * 1000

/-- `Joback.Hfus` (joback.py 772-779). -/
def Hfus (t : Table) (c : Counts) : Option ℚ :=
  (loop (fun g => (t g).bind (·.Hfus)) c 0).map fun tot => (-0.88 + tot) * 1000

/-- `Joback.Hvap` (joback.py 814-821). -/
def Hvap (t : Table) (c : Counts) : Option ℚ :=
  (loop (fun g => (t g).bind (·.Hvap)) c 0).map fun tot => (15.3 + tot) * 1000

/-- `Joback.Tc` (joback.py 562-571): a boiling point of `None` is estimated; dividing by zero or dividing `None`
ends in the `except`. -/
def Tc (t : Table) (c : Counts) (tb : Option ℚ) : Option ℚ :=
  let tb := match tb with
    | none => Tb t c
    | some v => some v
  match loop (fun g => (t g).bind (·.Tc)) c 0 with
  | none => none
  | some tot =>
    let den := 0.584 + 0.965 * tot - tot * tot
    match tb with
    | none => none
    | some v => if den = 0 then none else some (v / den)

/-- `Joback.Pc` (joback.py 608-615): zero to the power -2 ends in the `except`. -/
def Pc (t : Table) (c : Counts) (atoms : ℕ) : Option ℚ :=
  match loop (fun g => (t g).bind (·.Pc)) c 0 with
  | none => none
  | some tot =>
    let base := 0.113 + 0.0032 * atoms - tot
    if base = 0 then none else some ((1 / (base * base)) * 1e5)

/-- `Joback.Cpig_coeffs` (joback.py 861-874). -/
def CpigCoeffs (t : Table) (c : Counts) : Option (List ℚ) :=
  match loop (fun g => (t g).bind (·.Cpa)) c 0, loop (fun g => (t g).bind (·.Cpb)) c 0,
      loop (fun g => (t g).bind (·.Cpc)) c 0, loop (fun g => (t g).bind (·.Cpd)) c 0 with
  | some a, some b, some c', some d => some [a - 37.93, b + 0.210, c' - 3.91e-4, d + 2.06e-7]
  | _, _, _, _ => none

/-- `Joback.mul_coeffs` (joback.py 915-924). -/
def mulCoeffs (t : Table) (c : Counts) : Option (List ℚ) :=
  match loop (fun g => (t g).bind (·.mua)) c 0, loop (fun g => (t g).bind (·.mub)) c 0 with
  | some a, some b => some [a - 597.82, b - 11.202]
  | _, _ => none

/-- `horner` of `fluids`: coefficients from the highest power down. -/
def horner (coeffs : List ℚ) (x : ℚ) : ℚ := coeffs.foldl (fun tot c => tot * x + c) 0

/-- A `Joback` object: groups, molecular weight, stored coefficients (joback.py 399-427). -/
structure Obj where
  counts : Counts
  MW : ℚ
  cp : Option (List ℚ)
  mu : Option (List ℚ)

/-- `Joback.Cpig` (joback.py 952-958), the object afterwards and the result. -/
def Obj.Cpig (t : Table) (o : Obj) (T : ℚ) : Obj × Option ℚ :=
  let o := match o.cp with
    | none => { o with cp := CpigCoeffs t o.counts }
    | some _ => o
  match o.cp with
  | none => (o, none)
  | some cs => (o, some (horner cs.reverse T))

/-- `Joback.mul` (joback.py 985-991). A temperature of zero ends in the `except`. -/
noncomputable def Obj.mul (t : Table) (o : Obj) (T : ℚ) : Obj × Option ℝ :=
  let o := match o.mu with
    | none => { o with mu := mulCoeffs t o.counts }
    | some _ => o
  match o.mu with
  | some [a, b] => if T = 0 then (o, none) else (o, some (o.MW * Real.exp ((a / T + b : ℚ) : ℝ)))
  | _ => (o, none)

/-- Calls of the two methods of temperature. -/
inductive Call
  | cpig (T : ℚ)
  | mul (T : ℚ)

/-- The object after one call. -/
noncomputable def Obj.after (t : Table) (o : Obj) : Call → Obj
  | .cpig T => (o.Cpig t T).1
  | .mul T => (o.mul t T).1

/-- A new object: class attributes `calculated_Cpig_coeffs`, `calculated_mul_coeffs` are `None` (joback.py 395-396). -/
def fresh (c : Counts) (MW : ℚ) : Obj := ⟨c, MW, none, none⟩

/-- Atom count and molecular weight in `Joback.__init__` (joback.py 407-415): the molecule with hydrogens is only
made when the atom count is not given; `none` is the `AttributeError` of its use without it.
`found` are the values RDKit would give. -/
def initSizes (atomCount : Option ℕ) (MW : Option ℚ) (foundAtoms : ℕ) (foundMW : ℚ) : Option (ℕ × ℚ) :=
  let hasHs := atomCount.isNone
  let n := atomCount.getD foundAtoms
  match MW with
  | some m => some (n, m)
  | none => if hasHs then some (n, foundMW) else none

/-! ## Diky's revision of the method -/

/-- A row of `DIKY_JOBACK_GROUPS` after the conversions of the constructor (joback.py 1020-1023). -/
structure DikyRow where
  A0 : ℚ
  A1 : ℚ
  A2 : ℚ
  A3 : ℚ

/-- `DikyJobackGroupContribution.__init__` (joback.py 1020-1023). -/
def dikyRow (A0 A1 A2 A3 : ℚ) : DikyRow := ⟨A0, A1 / 100, A2 / 100000, A3 / 100000000⟩

/-- `counts[k] = counts.get(k, 0) + 1` on the items of a dictionary. -/
def bump (k : ℕ) : Counts → Counts
  | [] => [(k, 1)]
  | (g, n) :: rest => if g = k then (g, n + 1) :: rest else (g, n) :: bump k rest

/-- `counts[k] = v`. -/
def setCount (k : ℕ) (v : ℤ) : Counts → Counts
  | [] => [(k, v)]
  | (g, n) :: rest => if g = k then (g, v) :: rest else (g, n) :: setCount k v rest

/-- Groups of the molecule as a whole (joback.py 1247-1256): entity, rings of three and four atoms. -/
def dikyCounts (c : Counts) (ringSizes : List ℕ) : Counts :=
  ringSizes.foldl (fun c s => if s = 3 then bump 43 c else if s = 4 then bump 44 c else c) (setCount 42 1 c)

/-- `DikyJoback.get_coefficients` (joback.py 1288-1298); `none` is the `KeyError` of an unknown group. -/
def dikyCoeffs (t : ℕ → Option DikyRow) : Counts → Option DikyRow
  | c => c.foldl (fun acc p => match acc, t p.1 with
      | some a, some g => some ⟨a.A0 + p.2 * g.A0, a.A1 + p.2 * g.A1, a.A2 + p.2 * g.A2, a.A3 + p.2 * g.A3⟩
      | _, _ => none) (some ⟨0, 0, 0, 0⟩)

/-- `DikyJoback.Cpig` (joback.py 1321-1323). -/
def dikyCpig (coeffs : Option DikyRow) (T : ℚ) : Option ℚ :=
  coeffs.map fun k => k.A0 + k.A1 * T + k.A2 * T * T + k.A3 * T * T * T

/-! ## Fedors -/

/-- What `Fedors` learns from the molecule (fedors.py 107-151): atoms by element, matches of the two patterns, ring
sizes, bonds by type (`none` is a type it does not know), rings attached to rings. -/
structure FedorsMol where
  atoms : List (String × ℤ)
  alcohols : ℤ
  amines : ℤ
  rings : List ℕ
  bonds : List (Option ℕ)
  ringRing : ℤ

/-- `fedors_contributions` (fedors.py 38-44). -/
def fedorsTable : List (String × ℚ) :=
  [("C", 34.426), ("H", 9.172), ("O", 20.291), ("O_alcohol", 18), ("N", 48.855), ("N_amine", 47.422),
   ("F", 22.242), ("Cl", 52.801), ("Br", 71.774), ("I", 96.402), ("S", 50.866), ("3_ring", -15.824),
   ("4_ring", -17.247), ("5_ring", -39.126), ("6_ring", -39.508), ("double_bond", 5.028), ("triple_bond", 0.7973),
   ("ring_ring_bonds", 35.524)]

/-- `fedors_allowed_atoms` (fedors.py 37). -/
def fedorsAllowed : List String := ["C", "H", "O", "N", "F", "Cl", "Br", "I", "S"]

/-- `d.get(k)` on items. -/
def lookup (k : String) : List (String × ℤ) → Option ℤ
  | [] => none
  | (g, n) :: rest => if g = k then some n else lookup k rest

/-- Update of an existing or new key. -/
def put (k : String) (v : ℤ) : List (String × ℤ) → List (String × ℤ)
  | [] => [(k, v)]
  | (g, n) :: rest => if g = k then (g, v) :: rest else (g, n) :: put k v rest

/-- `if k not in atoms: atoms[k] = 0` (fedors.py 153-156). -/
def ensure (k : String) (d : List (String × ℤ)) : List (String × ℤ) :=
  match lookup k d with
  | none => put k 0 d
  | some _ => d

/-- The dictionary of features (fedors.py 153-170). -/
def fedorsFeatures (m : FedorsMol) : List (String × ℤ) :=
  let d := ensure "O" (ensure "N" m.atoms)
  let d := put "O_alcohol" m.alcohols d
  let d := put "O" ((lookup "O" d).getD 0 - m.alcohols) d
  let d := put "N_amine" m.amines d
  let d := put "N" ((lookup "N" d).getD 0 - m.amines) d
  let d := put "3_ring" (m.rings.count 3) d
  let d := put "4_ring" (m.rings.count 4) d
  let d := put "5_ring" (m.rings.count 5) d
  let d := put "6_ring" (m.rings.count 6) d
  let d := put "double_bond" (m.bonds.count (some 2)) d
  let d := put "triple_bond" (m.bonds.count (some 3)) d
  put "ring_ring_bonds" m.ringRing d

/-- The sum over the table, features that are absent are skipped (fedors.py 173-180). -/
def fedorsVc (m : FedorsMol) : ℚ :=
  (fedorsTable.foldl (fun v kc => match lookup kc.1 (fedorsFeatures m) with
    | some n => v + n * kc.2
    | none => v) 26.6) * 1e-6

/-- The three flags (fedors.py 110-158): unknown atoms, unknown bonds, unknown ring sizes. Bond types known: single
(1), double (2), triple (3), aromatic (4). -/
def fedorsFlags (m : FedorsMol) : Bool × Bool × Bool :=
  ((ensure "O" (ensure "N" m.atoms)).any (fun p => !fedorsAllowed.contains p.1),
   m.bonds.any (fun b => !(b = some 1 ∨ b = some 2 ∨ b = some 3 ∨ b = some 4)),
   m.rings.any (fun r => !(r = 3 ∨ r = 4 ∨ r = 5 ∨ r = 6)))

/-- `status == 'OK'` (fedors.py 182). -/
def fedorsOk (m : FedorsMol) : Bool :=
  let f := fedorsFlags m
  !(f.1 || f.2.1 || f.2.2)

/-! ## Wilson and Jasperson -/

/-- Sum over the atoms, with the flag of missing increments (wilson_jasperson.py 293-307). For the pressure an entry
`None` of the table raises `TypeError`, which is caught as a missing key is. -/
def incLoop (table : String → Option ℝ) : List (String × ℤ) → ℝ × Bool → ℝ × Bool
  | [], s => s
  | (k, n) :: rest, s =>
    match table k with
    | some v => incLoop table rest (s.1 + v * n, s.2)
    | none => incLoop table rest (s.1, true)

/-- Sum over second order groups (wilson_jasperson.py 309-315); every name it makes is in the table. -/
def groupSum (table : String → ℝ) (groups : List (String × ℤ)) (secondOrder : Bool) : ℝ :=
  if secondOrder then (groups.map fun p => table p.1 * p.2).sum else 0

/-- Result of `Wilson_Jasperson`. -/
structure WJ where
  Tc : ℝ
  Pc : ℝ
  missingTc : Bool
  missingPc : Bool

open Classical in
/-- `Wilson_Jasperson` from the increments on (wilson_jasperson.py 293-332); `none` is `ZeroDivisionError`. -/
noncomputable def wilsonJasperson (tTc tPc : String → Option ℝ) (gTc gPc : String → ℝ) (atoms groups : List (String × ℤ))
    (Nr : ℕ) (secondOrder : Bool) (tb : ℝ) : Option WJ :=
  let a := incLoop tTc atoms (0, false)
  let p := incLoop tPc atoms (0, false)
  let den := 0.048271 - 0.019846 * (Nr : ℝ) + a.1 + groupSum gTc groups secondOrder
  let Y := -0.00922295 - 0.0290403 * (Nr : ℝ) + 0.041 * (groupSum gPc groups secondOrder + p.1)
  let d := -0.96601 + Real.exp Y
  if den = 0 ∨ d = 0 then none
  else if 0 ≤ den then
    let tc := tb / den ^ (0.2 : ℝ)
    some ⟨tc, 0.0186233 * tc / d * 1e5, a.2, p.2⟩
  else
    let tc := tb * 2.5
    some ⟨tc, 0.0186233 * tc / d * 1e5, true, p.2⟩

/-- The increments of carbon and hydrogen (wilson_jasperson.py 57, 62, 103, 108); other elements left out. -/
noncomputable def wjTcCH : String → Option ℝ
  | "C" => some 0.008532
  | "H" => some 0.002793
  | _ => none

/-- See `wjTcCH`. -/
noncomputable def wjPcCH : String → Option ℝ
  | "C" => some 0.72983
  | "H" => some 0.1266
  | _ => none

/-! ## Bondi -/

/-- A row of `BONDI_GROUPS`: volume and area (bondi.py 38-66). -/
structure BondiRow where
  Vw : ℚ
  Aw : Option ℚ

/-- `bondi_van_der_waals_surface_area_volume` (bondi.py 815-832) from the assignment on. -/
def bondi (t : ℕ → Option BondiRow) (c : Counts) : ℚ × ℚ :=
  let r := c.foldl (fun (acc : ℚ × ℚ) p => match t p.1 with
    | none => acc
    | some g => (acc.1 + g.Vw * p.2, match g.Aw with
        | none => acc.2
        | some a => acc.2 + a * p.2)) (0, 0)
  (r.1 * 1e-6, r.2 * (0.0001 * 1e9))

/-- `R_from_Van_der_Waals_volume` (bondi.py 866). -/
def Rvdw (V : ℚ) : ℚ := V / 1.517e-05

/-- `Q_from_Van_der_Waals_area` (bondi.py 893). -/
def Qvdw (A : ℚ) : ℚ := A / 250000

/-- `Van_der_Waals_volume` (unifac.py 3623). -/
def vdwVolume (R : ℚ) : ℚ := R * 1.517e-05

/-- `Van_der_Waals_area` (unifac.py 3658). -/
def vdwArea (Q : ℚ) : ℚ := Q * 250000

/-- `R_Q_from_bondi` (bondi.py 834-838). -/
def RQ (t : ℕ → Option BondiRow) (c : Counts) : ℚ × ℚ :=
  let r := bondi t c
  (Rvdw r.1, Qvdw r.2)

/-- Carbon groups of Bondi's table (bondi.py 75-78, 88-93, 112-117); other groups left out. -/
def bondiCarbon : ℕ → Option BondiRow
  | 1 => some ⟨3.33, some 0.0⟩
  | 2 => some ⟨6.78, some 0.57⟩
  | 3 => some ⟨10.23, some 1.35⟩
  | 4 => some ⟨13.67, some 2.12⟩
  | 6 => some ⟨6.96, none⟩
  | 9 => some ⟨11.94, some 1.86⟩
  | _ => none

/-! ## Specification -/

/-- Every group has a value. -/
def Known (f : ℕ → Option ℚ) (c : Counts) : Prop := ∀ p ∈ c, ∃ v, f p.1 = some v

/-- The sum of counts times values, a missing value counted as zero. -/
def total (f : ℕ → Option ℚ) (c : Counts) : ℚ := (c.map fun p => (f p.1).getD 0 * p.2).sum

/-- The `C_n` normal alkane in groups of Joback's table: two `-CH3`, `k` `-CH2-`. -/
def alkane (k : ℕ) : Counts := [(1, 2), (2, (k : ℤ))]

theorem loop_known {f : ℕ → Option ℚ} {c : Counts} (h : Known f c) (t : ℚ) : loop f c t = some (t + total f c) := by
  induction c generalizing t with
  | nil => simp [loop, total]
  | cons p r ih =>
    obtain ⟨g, n⟩ := p
    obtain ⟨v, hv⟩ := h (g, n) (by simp)
    have hr : Known f r := fun q hq => h q (by simp [hq])
    have hv' : f g = some v := hv
    simp only [loop, hv', ih hr]
    simp [total, hv', add_assoc]

theorem loop_unknown {f : ℕ → Option ℚ} {c : Counts} (h : ¬ Known f c) (t : ℚ) : loop f c t = none := by
  induction c generalizing t with
  | nil => exact absurd (fun p hp => by simp at hp) h
  | cons p r ih =>
    obtain ⟨g, n⟩ := p
    rcases hg : f g with _ | v
    · simp [loop, hg]
    · simp only [loop, hg]
      refine ih (fun hr => h fun q hq => ?_) _
      rcases List.mem_cons.1 hq with rfl | hq
      · exact ⟨v, hg⟩
      · exact hr q hq

theorem known_perm {f : ℕ → Option ℚ} {c c' : Counts} (h : c.Perm c') : Known f c ↔ Known f c' :=
  ⟨fun k p hp => k p (h.mem_iff.2 hp), fun k p hp => k p (h.mem_iff.1 hp)⟩

theorem total_perm {f : ℕ → Option ℚ} {c c' : Counts} (h : c.Perm c') : total f c = total f c' :=
  (h.map _).sum_eq

theorem loop_perm {f : ℕ → Option ℚ} {c c' : Counts} (h : c.Perm c') (t : ℚ) : loop f c t = loop f c' t := by
  by_cases k : Known f c
  · rw [loop_known k, loop_known ((known_perm h).1 k), total_perm h]
  · rw [loop_unknown k, loop_unknown fun k' => k ((known_perm h).2 k')]

/-- **C99.** For every table and every molecule whose groups have the value concerned, the seven linear estimates of
Joback are the documented constant plus the sum of the contributions, in SI units. -/
theorem C99_linear (t : Table) (c : Counts) :
    (Known (fun g => (t g).bind (·.Tb)) c → Tb t c = some (198.2 + total (fun g => (t g).bind (·.Tb)) c)) ∧
    (Known (fun g => (t g).bind (·.Tm)) c → Tm t c = some (122.5 + total (fun g => (t g).bind (·.Tm)) c)) ∧
    (Known (fun g => (t g).bind (·.Vc)) c →
      Vc t c = some ((17.5 + total (fun g => (t g).bind (·.Vc)) c) / 1000000)) ∧
    (Known (fun g => (t g).bind (·.Hform)) c →
      Hf t c = some (68290 + 1000 * total (fun g => (t g).bind (·.Hform)) c)) ∧
    (Known (fun g => (t g).bind (·.Gform)) c →
      Gf t c = some (53880 + 1000 * total (fun g => (t g).bind (·.Gform)) c)) ∧
    (Known (fun g => (t g).bind (·.Hfus)) c →
      Hfus t c = some (-880 + 1000 * total (fun g => (t g).bind (·.Hfus)) c)) ∧
    (Known (fun g => (t g).bind (·.Hvap)) c →
      Hvap t c = some (15300 + 1000 * total (fun g => (t g).bind (·.Hvap)) c)) := by
  refine ⟨fun h => ?_, fun h => ?_, fun h => ?_, fun h => ?_, fun h => ?_, fun h => ?_, fun h => ?_⟩ <;>
    simp only [Tb, Tm, Vc, Hf, Gf, Hfus, Hvap, loop_known h, Option.map_some, Option.some.injEq] <;> ring

/-- Acetone, the example of the documentation (joback.py 333-346): two `-CH3` and one `>C=O`. -/
example : Tb joback [(1, 2), (24, 1)] = some 322.11 ∧ Tm joback [(1, 2), (24, 1)] = some 173.5 ∧
    Vc joback [(1, 2), (24, 1)] = some 0.0002095 ∧ Hf joback [(1, 2), (24, 1)] = some (-217830) ∧
    Gf joback [(1, 2), (24, 1)] = some (-154540) ∧ Hfus joback [(1, 2), (24, 1)] = some 5125 ∧
    Hvap joback [(1, 2), (24, 1)] = some 29018 := by
  refine ⟨?_, ?_, ?_, ?_, ?_, ?_, ?_⟩ <;> norm_num [Tb, Tm, Vc, Hf, Gf, Hfus, Hvap, loop, joback]

/-- **C99.** An estimate that needs a value some group lacks (or an unknown group) is `None`, not a sum with a hole:
all eleven static methods. -/
theorem C99_missing (t : Table) (c : Counts) (tb : Option ℚ) (n : ℕ) :
    (¬ Known (fun g => (t g).bind (·.Tb)) c → Tb t c = none) ∧
    (¬ Known (fun g => (t g).bind (·.Tm)) c → Tm t c = none) ∧
    (¬ Known (fun g => (t g).bind (·.Vc)) c → Vc t c = none) ∧
    (¬ Known (fun g => (t g).bind (·.Hform)) c → Hf t c = none) ∧
    (¬ Known (fun g => (t g).bind (·.Gform)) c → Gf t c = none) ∧
    (¬ Known (fun g => (t g).bind (·.Hfus)) c → Hfus t c = none) ∧
    (¬ Known (fun g => (t g).bind (·.Hvap)) c → Hvap t c = none) ∧
    (¬ Known (fun g => (t g).bind (·.Tc)) c → Tc t c tb = none) ∧
    (¬ Known (fun g => (t g).bind (·.Tb)) c → Tc t c none = none) ∧
    (¬ Known (fun g => (t g).bind (·.Pc)) c → Pc t c n = none) ∧
    (¬ Known (fun g => (t g).bind (·.Cpa)) c ∨ ¬ Known (fun g => (t g).bind (·.Cpb)) c ∨
      ¬ Known (fun g => (t g).bind (·.Cpc)) c ∨ ¬ Known (fun g => (t g).bind (·.Cpd)) c → CpigCoeffs t c = none) ∧
    (¬ Known (fun g => (t g).bind (·.mua)) c ∨ ¬ Known (fun g => (t g).bind (·.mub)) c → mulCoeffs t c = none) := by
  refine ⟨fun h => ?_, fun h => ?_, fun h => ?_, fun h => ?_, fun h => ?_, fun h => ?_, fun h => ?_, fun h => ?_,
    fun h => ?_, fun h => ?_, fun h => ?_, fun h => ?_⟩
  · simp [Tb, loop_unknown h]
  · simp [Tm, loop_unknown h]
  · simp [Vc, loop_unknown h]
  · simp [Hf, loop_unknown h]
  · simp [Gf, loop_unknown h]
  · simp [Hfus, loop_unknown h]
  · simp [Hvap, loop_unknown h]
  · simp [Tc, loop_unknown h]
  · rcases hl : loop (fun g => (t g).bind (·.Tc)) c 0 with _ | v <;> simp [Tc, Tb, loop_unknown h, hl]
  · simp [Pc, loop_unknown h]
  · unfold CpigCoeffs
    rcases h with h | h | h | h
    · rw [loop_unknown h]
    all_goals
      rw [loop_unknown h]
      split <;> simp_all
  · unfold mulCoeffs
    rcases h with h | h
    · rw [loop_unknown h]
    · rw [loop_unknown h]
      split <;> simp_all

/-- Group 34 has no critical volume, group 36 no critical temperature. -/
example : Vc joback [(1, 1), (34, 1)] = none ∧ Tc joback [(1, 1), (36, 1)] (some 300) = none ∧
    Tb joback [(99, 1)] = none := by
  refine ⟨?_, ?_, ?_⟩ <;> simp [Vc, Tc, Tb, loop, joback]

/-- **C99.** The order of the dictionary does not matter for any estimate. -/
theorem C99_order (t : Table) {c c' : Counts} (h : c.Perm c') (tb : Option ℚ) (n : ℕ) :
    Tb t c = Tb t c' ∧ Tm t c = Tm t c' ∧ Vc t c = Vc t c' ∧ Hf t c = Hf t c' ∧ Gf t c = Gf t c' ∧
    Hfus t c = Hfus t c' ∧ Hvap t c = Hvap t c' ∧ Tc t c tb = Tc t c' tb ∧ Pc t c n = Pc t c' n ∧
    CpigCoeffs t c = CpigCoeffs t c' ∧ mulCoeffs t c = mulCoeffs t c' := by
  simp only [Tb, Tm, Vc, Hf, Gf, Hfus, Hvap, Tc, Pc, CpigCoeffs, mulCoeffs, loop_perm h, and_self]

example : ([(1, 2), (24, 1)] : Counts).Perm [(24, 1), (1, 2)] := by decide

/-- Group identifiers of the table. -/
def ids (c : Counts) : Prop := ∀ p ∈ c, 1 ≤ p.1 ∧ p.1 ≤ 41

theorem loop_isSome (f : ℕ → Option ℚ) (c : Counts) (t : ℚ) : (loop f c t).isSome ↔ Known f c := by
  by_cases h : Known f c
  · simp [loop_known h, h]
  · simp [loop_unknown h, h]

theorem known_ids {f : ℕ → Option ℚ} {good : ℕ → Prop}
    (hf : ∀ g, g < 42 → 1 ≤ g → ((f g).isSome ↔ good g)) {c : Counts} (h : ids c) :
    Known f c ↔ ∀ p ∈ c, good p.1 :=
  forall₂_congr fun p hp => by
    rw [← hf p.1 (Nat.lt_succ_of_le (h p hp).2) (h p hp).1, Option.isSome_iff_exists]

/-- **C99.** With Joback's table the boiling point, the enthalpy of formation and the enthalpy of vaporization are
estimated for every combination of its 41 groups. The groups that block another estimate are exactly: 36 for the
critical temperature and pressure, 34 and 36 for the critical volume, 34 for the melting point, the Gibbs energy and
the heat capacity, 34 and 36 for the enthalpy of fusion. -/
theorem C99_table (c : Counts) (h : ids c) (n : ℕ) :
    (Tb joback c).isSome ∧ (Hf joback c).isSome ∧ (Hvap joback c).isSome ∧
    ((Tm joback c).isSome ↔ ∀ p ∈ c, p.1 ≠ 34) ∧ ((Gf joback c).isSome ↔ ∀ p ∈ c, p.1 ≠ 34) ∧
    ((CpigCoeffs joback c).isSome ↔ ∀ p ∈ c, p.1 ≠ 34) ∧
    ((Vc joback c).isSome ↔ ∀ p ∈ c, p.1 ≠ 34 ∧ p.1 ≠ 36) ∧
    ((Hfus joback c).isSome ↔ ∀ p ∈ c, p.1 ≠ 34 ∧ p.1 ≠ 36) ∧
    ((Tc joback c none).isSome → ∀ p ∈ c, p.1 ≠ 36) ∧ ((Pc joback c n).isSome → ∀ p ∈ c, p.1 ≠ 36) := by
  have kTb := known_ids (f := fun g => (joback g).bind (·.Tb)) (good := fun _ => True)
    (by decide +kernel) h
  have kHf := known_ids (f := fun g => (joback g).bind (·.Hform)) (good := fun _ => True)
    (by decide +kernel) h
  have kHv := known_ids (f := fun g => (joback g).bind (·.Hvap)) (good := fun _ => True)
    (by decide +kernel) h
  have kTm := known_ids (f := fun g => (joback g).bind (·.Tm)) (good := fun g => g ≠ 34)
    (by decide +kernel) h
  have kGf := known_ids (f := fun g => (joback g).bind (·.Gform)) (good := fun g => g ≠ 34)
    (by decide +kernel) h
  have ka := known_ids (f := fun g => (joback g).bind (·.Cpa)) (good := fun g => g ≠ 34)
    (by decide +kernel) h
  have kb := known_ids (f := fun g => (joback g).bind (·.Cpb)) (good := fun g => g ≠ 34)
    (by decide +kernel) h
  have kc := known_ids (f := fun g => (joback g).bind (·.Cpc)) (good := fun g => g ≠ 34)
    (by decide +kernel) h
  have kd := known_ids (f := fun g => (joback g).bind (·.Cpd)) (good := fun g => g ≠ 34)
    (by decide +kernel) h
  have kVc := known_ids (f := fun g => (joback g).bind (·.Vc)) (good := fun g => g ≠ 34 ∧ g ≠ 36)
    (by decide +kernel) h
  have kHs := known_ids (f := fun g => (joback g).bind (·.Hfus)) (good := fun g => g ≠ 34 ∧ g ≠ 36)
    (by decide +kernel) h
  have kTc := known_ids (f := fun g => (joback g).bind (·.Tc)) (good := fun g => g ≠ 36)
    (by decide +kernel) h
  have kPc := known_ids (f := fun g => (joback g).bind (·.Pc)) (good := fun g => g ≠ 36)
    (by decide +kernel) h
  have hM := C99_missing joback c none n
  refine ⟨?_, ?_, ?_, ?_, ?_, ?_, ?_, ?_, fun hs => ?_, fun hs => ?_⟩
  · simp only [Tb, Option.isSome_map, loop_isSome]; exact kTb.2 fun _ _ => trivial
  · simp only [Hf, Option.isSome_map, loop_isSome]; exact kHf.2 fun _ _ => trivial
  · simp only [Hvap, Option.isSome_map, loop_isSome]; exact kHv.2 fun _ _ => trivial
  · simp only [Tm, Option.isSome_map, loop_isSome]; exact kTm
  · simp only [Gf, Option.isSome_map, loop_isSome]; exact kGf
  · rw [← ka]
    constructor
    · intro hs
      by_contra hk
      rw [hM.2.2.2.2.2.2.2.2.2.2.1 (.inl hk)] at hs
      simp at hs
    · intro hk
      have hall := ka.1 hk
      simp [CpigCoeffs, loop_known hk, loop_known (kb.2 hall), loop_known (kc.2 hall), loop_known (kd.2 hall)]
  · simp only [Vc, Option.isSome_map, loop_isSome]; exact kVc
  · simp only [Hfus, Option.isSome_map, loop_isSome]; exact kHs
  · refine kTc.1 (by_contra fun hk => ?_)
    rw [hM.2.2.2.2.2.2.2.1 hk] at hs
    simp at hs
  · refine kPc.1 (by_contra fun hk => ?_)
    rw [hM.2.2.2.2.2.2.2.2.2.1 hk] at hs
    simp at hs

/-- Acetone has all values, an imine has no critical volume. -/
example : ids [(1, 2), (24, 1)] ∧ ids [(1, 1), (34, 1)] ∧ (Vc joback [(1, 1), (34, 1)]).isSome = false := by
  refine ⟨by intro p hp; simp at hp; rcases hp with rfl | rfl <;> simp,
    by intro p hp; simp at hp; rcases hp with rfl | rfl <;> simp, by simp [Vc, loop, joback]⟩

/-! ## Critical constants -/

/-- The denominator of the critical temperature. -/
def tcDen (c : Counts) : ℚ :=
  0.584 + 0.965 * total (fun g => (joback g).bind (·.Tc)) c - total (fun g => (joback g).bind (·.Tc)) c ^ 2

/-- **C99.** A critical temperature is estimated exactly when the groups have values and the denominator is not zero,
from the given boiling point or else from the estimated one. -/
theorem C99_Tc (c : Counts) (h : Known (fun g => (joback g).bind (·.Tc)) c) (hd : tcDen c ≠ 0) (tb : ℚ) :
    Tc joback c (some tb) = some (tb / tcDen c) ∧ Tc joback c none = (Tb joback c).map (· / tcDen c) := by
  have hd' : ¬ (0.584 + 0.965 * (0 + total (fun g => (joback g).bind (·.Tc)) c) -
      (0 + total (fun g => (joback g).bind (·.Tc)) c) * (0 + total (fun g => (joback g).bind (·.Tc)) c) = 0) := by
    rw [zero_add]; intro e; exact hd (by rw [tcDen, ← e]; ring)
  have he : 0.584 + 0.965 * (0 + total (fun g => (joback g).bind (·.Tc)) c) -
      (0 + total (fun g => (joback g).bind (·.Tc)) c) * (0 + total (fun g => (joback g).bind (·.Tc)) c) = tcDen c := by
    rw [zero_add, tcDen]; ring
  constructor
  · simp only [Tc, loop_known h, he, if_neg hd]
  · rcases hb : Tb joback c with _ | v <;> simp only [Tc, hb, loop_known h, he, if_neg hd, Option.map]

/-- **C99.** Where the denominator is positive the estimated critical temperature exceeds the boiling point by at
least 22 %. What is missing: the denominator is not always positive, see `C99_Tc_fails`. -/
theorem C99_Tc_partial (c : Counts) (h : Known (fun g => (joback g).bind (·.Tc)) c) (hd : 0 < tcDen c) (tb : ℚ)
    (htb : 0 < tb) : ∃ tc, Tc joback c (some tb) = some tc ∧ 1.22 * tb < tc := by
  refine ⟨_, (C99_Tc c h hd.ne' tb).1, ?_⟩
  rw [lt_div_iff₀ hd]
  have : tcDen c ≤ 0.8168063 := by
    unfold tcDen
    nlinarith [sq_nonneg (total (fun g => (joback g).bind (·.Tc)) c - 0.4825)]
  nlinarith

theorem alkane_known (k : ℕ) : Known (fun g => (joback g).bind (·.Tc)) (alkane k) := by
  intro p hp
  simp only [alkane, List.mem_cons, List.not_mem_nil, or_false] at hp
  rcases hp with rfl | rfl
  · exact ⟨0.0141, rfl⟩
  · exact ⟨0.0189, rfl⟩

theorem alkane_den (k : ℕ) : tcDen (alkane k) = 0.584 + 0.965 * (0.0282 + 0.0189 * k) - (0.0282 + 0.0189 * k) ^ 2 := by
  have h1 : (joback 1).bind (·.Tc) = some 0.0141 := rfl
  have h2 : (joback 2).bind (·.Tc) = some 0.0189 := rfl
  simp only [tcDen, total, alkane, h1, h2, List.map, List.sum_cons, List.sum_nil, Option.getD_some]
  push_cast
  ring

/-- **C99.** For normal alkanes the estimate lies above the boiling point up to 73 carbon atoms … -/
theorem C99_alkane_partial (k : ℕ) (hk : k ≤ 71) (tb : ℚ) (htb : 0 < tb) :
    ∃ tc, Tc joback (alkane k) (some tb) = some tc ∧ tb < tc := by
  have hd : 0 < tcDen (alkane k) := by
    rw [alkane_den]
    have h0 : (0 : ℚ) ≤ k := by positivity
    have h1 : (k : ℚ) ≤ 71 := by exact_mod_cast hk
    nlinarith
  obtain ⟨tc, h, hl⟩ := C99_Tc_partial _ (alkane_known k) hd tb htb
  exact ⟨tc, h, by linarith⟩

/-- **C99.** … and is a negative absolute temperature for every longer one. -/
theorem C99_Tc_fails (k : ℕ) (hk : 72 ≤ k) : ∃ tc, Tc joback (alkane k) none = some tc ∧ tc < 0 := by
  have hd : tcDen (alkane k) < 0 := by
    rw [alkane_den]
    have h1 : (72 : ℚ) ≤ k := by exact_mod_cast hk
    nlinarith
  have h1 : (joback 1).bind (·.Tb) = some 23.58 := rfl
  have h2 : (joback 2).bind (·.Tb) = some 22.88 := rfl
  have hb : Tb joback (alkane k) = some (198.2 + (47.16 + 22.88 * (k : ℚ))) := by
    rw [(C99_linear joback _).1 ?_]
    · simp only [total, alkane, h1, h2, List.map, List.sum_cons, List.sum_nil, Option.getD_some, Option.some.injEq]
      push_cast
      ring
    · intro p hp
      simp only [alkane, List.mem_cons, List.not_mem_nil, or_false] at hp
      rcases hp with rfl | rfl
      · exact ⟨_, h1⟩
      · exact ⟨_, h2⟩
  have hT := (C99_Tc _ (alkane_known k) hd.ne 0).2
  rw [hb, Option.map_some] at hT
  refine ⟨_, hT, ?_⟩
  have h0 : (0 : ℚ) ≤ k := by positivity
  exact div_neg_of_pos_of_neg (by linarith) hd

/-- Butane: 425 K. -/
example : Tc joback (alkane 2) (some 272.65) = some (272.65 / 0.643334) := by
  rw [(C99_Tc _ (alkane_known 2) (by rw [alkane_den]; norm_num) _).1, alkane_den]; norm_num

/-- **C99.** An estimated critical pressure is positive, and the inverse square of the documented sum, in pascal. -/
theorem C99_Pc (t : Table) (c : Counts) (n : ℕ) (h : Known (fun g => (t g).bind (·.Pc)) c) :
    let b := 0.113 + 0.0032 * (n : ℚ) - total (fun g => (t g).bind (·.Pc)) c
    (b = 0 → Pc t c n = none) ∧ (b ≠ 0 → ∃ p, Pc t c n = some p ∧ 0 < p ∧ p * b ^ 2 = 100000) := by
  intro b
  have hb : 0.113 + 0.0032 * (n : ℚ) - (0 + total (fun g => (t g).bind (·.Pc)) c) = b := by rw [zero_add]
  constructor
  · intro h0
    simp only [Pc, loop_known h, hb, if_pos h0]
  · intro h0
    refine ⟨1 / (b * b) * 1e5, by simp only [Pc, loop_known h, hb, if_neg h0], ?_, ?_⟩
    · have : 0 < b * b := mul_self_pos.2 h0
      positivity
    · field_simp; norm_num

/-- Acetone: 48 bar with ten atoms. -/
example : Pc joback [(1, 2), (24, 1)] 10 = some (100000 / 0.1443 ^ 2) := by
  norm_num [Pc, loop, joback]

/-! ## Stored coefficients -/

/-- What every sequence of calls keeps: groups, molecular weight, and stored coefficients that are absent or right. -/
theorem after_inv (t : Table) (c : Counts) (MW : ℚ) (calls : List Call) :
    let o := calls.foldl (Obj.after t) (fresh c MW)
    o.counts = c ∧ o.MW = MW ∧ (o.cp = none ∨ o.cp = CpigCoeffs t c) ∧ (o.mu = none ∨ o.mu = mulCoeffs t c) := by
  suffices ∀ o : Obj, (o.counts = c ∧ o.MW = MW ∧ (o.cp = none ∨ o.cp = CpigCoeffs t c) ∧
      (o.mu = none ∨ o.mu = mulCoeffs t c)) →
      ((calls.foldl (Obj.after t) o).counts = c ∧ (calls.foldl (Obj.after t) o).MW = MW ∧
        ((calls.foldl (Obj.after t) o).cp = none ∨ (calls.foldl (Obj.after t) o).cp = CpigCoeffs t c) ∧
        ((calls.foldl (Obj.after t) o).mu = none ∨ (calls.foldl (Obj.after t) o).mu = mulCoeffs t c)) from
    this _ ⟨rfl, rfl, .inl rfl, .inl rfl⟩
  induction calls with
  | nil => exact fun o h => h
  | cons a r ih =>
    intro o ⟨h1, h2, h3, h4⟩
    refine ih _ ?_
    cases a with
    | cpig T =>
      simp only [Obj.after, Obj.Cpig]
      rcases hc : o.cp with _ | cs
      · dsimp only
        rcases hk : CpigCoeffs t o.counts with _ | cs
        · exact ⟨h1, h2, .inl rfl, h4⟩
        · exact ⟨h1, h2, .inr (by rw [← h1, hk]), h4⟩
      · simp only [hc]
        exact ⟨h1, h2, by rw [hc] at h3; exact h3, h4⟩
    | mul T =>
      simp only [Obj.after, Obj.mul]
      rcases hc : o.mu with _ | cs
      · dsimp only
        split
        · split_ifs <;> exact ⟨h1, h2, h3, .inr (by rw [← h1])⟩
        · exact ⟨h1, h2, h3, .inr (by rw [← h1])⟩
      · simp only
        split
        · split_ifs <;> exact ⟨h1, h2, h3, h4⟩
        · exact ⟨h1, h2, h3, h4⟩

/-- **C99.** The ideal gas heat capacity of a `Joback` object is the cubic of the documentation at the temperature of
the call, whatever was called before. -/
theorem C99_Cpig (t : Table) (c : Counts) (MW : ℚ) (calls : List Call) (T : ℚ)
    (ha : Known (fun g => (t g).bind (·.Cpa)) c) (hb : Known (fun g => (t g).bind (·.Cpb)) c)
    (hc : Known (fun g => (t g).bind (·.Cpc)) c) (hd : Known (fun g => (t g).bind (·.Cpd)) c) :
    ((calls.foldl (Obj.after t) (fresh c MW)).Cpig t T).2 =
      some ((total (fun g => (t g).bind (·.Cpa)) c - 37.93) + (total (fun g => (t g).bind (·.Cpb)) c + 0.21) * T +
        (total (fun g => (t g).bind (·.Cpc)) c - 0.000391) * T ^ 2 +
        (total (fun g => (t g).bind (·.Cpd)) c + 0.000000206) * T ^ 3) := by
  obtain ⟨h1, -, h3, -⟩ := after_inv t c MW calls
  set o := calls.foldl (Obj.after t) (fresh c MW)
  have hk : CpigCoeffs t c = some [total (fun g => (t g).bind (·.Cpa)) c - 37.93,
      total (fun g => (t g).bind (·.Cpb)) c + 0.210, total (fun g => (t g).bind (·.Cpc)) c - 3.91e-4,
      total (fun g => (t g).bind (·.Cpd)) c + 2.06e-7] := by
    simp only [CpigCoeffs, loop_known ha, loop_known hb, loop_known hc, loop_known hd, zero_add]
  rcases h3 with h3 | h3
  · simp only [Obj.Cpig, h3, h1, hk, Option.some.injEq, horner, List.reverse_cons, List.reverse_nil, List.nil_append,
      List.cons_append, List.foldl]
    ring
  · simp only [Obj.Cpig, h3, hk, Option.some.injEq, horner, List.reverse_cons, List.reverse_nil, List.nil_append,
      List.cons_append, List.foldl]
    ring

/-- **C99.** Likewise the liquid viscosity, which is positive for a positive molecular weight. -/
theorem C99_mul (t : Table) (c : Counts) (MW : ℚ) (calls : List Call) (T : ℚ) (hT : T ≠ 0)
    (ha : Known (fun g => (t g).bind (·.mua)) c) (hb : Known (fun g => (t g).bind (·.mub)) c) :
    ∃ mu : ℝ, ((calls.foldl (Obj.after t) (fresh c MW)).mul t T).2 = some mu ∧
      mu = MW * Real.exp (((total (fun g => (t g).bind (·.mua)) c - 597.82) / T +
        (total (fun g => (t g).bind (·.mub)) c - 11.202) : ℚ)) ∧ (0 < MW → 0 < mu) := by
  obtain ⟨h1, h2, -, h4⟩ := after_inv t c MW calls
  set o := calls.foldl (Obj.after t) (fresh c MW)
  have hk : mulCoeffs t c = some [total (fun g => (t g).bind (·.mua)) c - 597.82,
      total (fun g => (t g).bind (·.mub)) c - 11.202] := by
    simp only [mulCoeffs, loop_known ha, loop_known hb, zero_add]
  refine ⟨_, ?_, rfl, fun h => mul_pos (by exact_mod_cast h) (Real.exp_pos _)⟩
  rcases h4 with h4 | h4
  · simp only [Obj.mul, h4, h1, hk, if_neg hT, h2]
  · simp only [Obj.mul, h4, hk, if_neg hT, h2]

/-- Acetone after two other calls. -/
example : (([Call.mul 300, Call.cpig 300].foldl (Obj.after joback) (fresh [(1, 2), (24, 1)] 58)).Cpig joback 350).2 =
    some 84.6910975 := by
  have h (f : ℕ → Option ℚ) (a b : ℚ) (ha : f 1 = some a) (hb : f 24 = some b) :
      Known f [(1, 2), (24, 1)] ∧ total f [(1, 2), (24, 1)] = 2 * a + b := by
    refine ⟨fun p hp => ?_, ?_⟩
    · simp only [List.mem_cons, List.not_mem_nil, or_false] at hp
      rcases hp with rfl | rfl
      · exact ⟨a, ha⟩
      · exact ⟨b, hb⟩
    · simp only [total, List.map, ha, hb, Option.getD_some, List.sum_cons, List.sum_nil]
      push_cast
      ring
  have h1 := h (fun g => (joback g).bind (·.Cpa)) 19.5 6.45 rfl rfl
  have h2 := h (fun g => (joback g).bind (·.Cpb)) (-0.00808) 0.067 rfl rfl
  have h3 := h (fun g => (joback g).bind (·.Cpc)) 0.000153 (-3.57e-05) rfl rfl
  have h4 := h (fun g => (joback g).bind (·.Cpd)) (-9.67e-08) 2.86e-09 rfl rfl
  rw [C99_Cpig joback _ 58 _ 350 h1.1 h2.1 h3.1 h4.1, h1.2, h2.2, h3.2, h4.2]
  norm_num

/-- **C99.** When the atom count is not given, or the molecular weight is, the sizes are the given ones or else those
of the molecule. What is missing: see `C99_init_fails`. -/
theorem C99_init_partial (n : Option ℕ) (m : Option ℚ) (fn : ℕ) (fm : ℚ) (h : n = none ∨ m ≠ none) :
    initSizes n m fn fm = some (n.getD fn, m.getD fm) := by
  rcases h with rfl | h
  · rcases m with _ | m <;> simp [initSizes]
  · rcases m with _ | m
    · exact absurd rfl h
    · simp [initSizes]

/-- **C99.** Giving only the atom count, an optional parameter of its own, raises `AttributeError`. -/
theorem C99_init_fails (n fn : ℕ) (fm : ℚ) : initSizes (some n) none fn fm = none := by simp [initSizes]

example : initSizes none none 10 58 = some (10, 58) ∧ initSizes (some 10) (some 58) 9 57 = some (10, 58) := by
  simp [initSizes]

/-! ## Diky -/

/-- Sum of one coefficient over the groups. -/
def dikySum (t : ℕ → Option DikyRow) (f : DikyRow → ℚ) (c : Counts) : ℚ :=
  (c.map fun p => (p.2 : ℚ) * ((t p.1).map f).getD 0).sum

theorem dikySum_bump (t : ℕ → Option DikyRow) (f : DikyRow → ℚ) (k : ℕ) (c : Counts) :
    dikySum t f (bump k c) = dikySum t f c + ((t k).map f).getD 0 := by
  induction c with
  | nil => simp [bump, dikySum]
  | cons p r ih =>
    obtain ⟨g, n⟩ := p
    unfold bump
    split_ifs with h
    · subst h
      simp only [dikySum, List.map, List.sum_cons]
      push_cast
      ring
    · simp only [dikySum, List.map, List.sum_cons] at ih ⊢
      rw [ih]
      ring

theorem dikySum_set (t : ℕ → Option DikyRow) (f : DikyRow → ℚ) (k : ℕ) (v : ℤ) (c : Counts)
    (h : ∀ p ∈ c, p.1 ≠ k) : dikySum t f (setCount k v c) = dikySum t f c + v * ((t k).map f).getD 0 := by
  induction c with
  | nil => simp [setCount, dikySum]
  | cons p r ih =>
    obtain ⟨g, n⟩ := p
    have hg : g ≠ k := h (g, n) (by simp)
    have ih := ih fun q hq => h q (by simp [hq])
    unfold setCount
    rw [if_neg hg]
    simp only [dikySum, List.map, List.sum_cons] at ih ⊢
    rw [ih]
    ring

theorem bump_mem {k : ℕ} {c : Counts} {p : ℕ × ℤ} (h : p ∈ bump k c) : p.1 = k ∨ ∃ q ∈ c, q.1 = p.1 := by
  induction c with
  | nil => simp only [bump, List.mem_singleton] at h; simp [h]
  | cons a r ih =>
    obtain ⟨g, n⟩ := a
    unfold bump at h
    split_ifs at h with hg
    · rcases List.mem_cons.1 h with rfl | h
      · exact .inl hg
      · exact .inr ⟨p, by simp [h], rfl⟩
    · rcases List.mem_cons.1 h with rfl | h
      · exact .inr ⟨_, by simp, rfl⟩
      · rcases ih h with e | ⟨q, hq, e⟩
        · exact .inl e
        · exact .inr ⟨q, by simp [hq], e⟩

theorem set_mem {k : ℕ} {v : ℤ} {c : Counts} {p : ℕ × ℤ} (h : p ∈ setCount k v c) : p.1 = k ∨ ∃ q ∈ c, q.1 = p.1 := by
  induction c with
  | nil => simp only [setCount, List.mem_singleton] at h; simp [h]
  | cons a r ih =>
    obtain ⟨g, n⟩ := a
    unfold setCount at h
    split_ifs at h with hg
    · rcases List.mem_cons.1 h with rfl | h
      · exact .inl hg
      · exact .inr ⟨p, by simp [h], rfl⟩
    · rcases List.mem_cons.1 h with rfl | h
      · exact .inr ⟨_, by simp, rfl⟩
      · rcases ih h with e | ⟨q, hq, e⟩
        · exact .inl e
        · exact .inr ⟨q, by simp [hq], e⟩

theorem dikyFold (t : ℕ → Option DikyRow) (c : Counts) (h : ∀ p ∈ c, (t p.1).isSome) (a : DikyRow) :
    c.foldl (fun acc p => match acc, t p.1 with
      | some a, some g => some (⟨a.A0 + p.2 * g.A0, a.A1 + p.2 * g.A1, a.A2 + p.2 * g.A2, a.A3 + p.2 * g.A3⟩ : DikyRow)
      | _, _ => none) (some a) =
    some ⟨a.A0 + dikySum t (·.A0) c, a.A1 + dikySum t (·.A1) c, a.A2 + dikySum t (·.A2) c,
      a.A3 + dikySum t (·.A3) c⟩ := by
  induction c generalizing a with
  | nil => simp [dikySum]
  | cons p r ih =>
    obtain ⟨g, hg⟩ := Option.isSome_iff_exists.1 (h p (by simp))
    rw [List.foldl_cons]
    simp only [hg]
    rw [ih fun q hq => h q (by simp [hq])]
    simp only [dikySum, List.map, List.sum_cons, hg, Option.map_some, Option.getD_some, add_assoc]

/-- **C99.** Diky's heat capacity: the groups found, plus the entity term once, plus one correction for each ring of
three and of four atoms, evaluated as a cubic in temperature. -/
theorem C99_diky (t : ℕ → Option DikyRow) (c : Counts) (rings : List ℕ) (T : ℚ) (e r3 r4 : DikyRow)
    (hc : ∀ p ∈ c, (t p.1).isSome ∧ p.1 ≠ 42 ∧ p.1 ≠ 43 ∧ p.1 ≠ 44)
    (he : t 42 = some e) (h3 : t 43 = some r3) (h4 : t 44 = some r4) :
    let cp (k : DikyRow) := k.A0 + k.A1 * T + k.A2 * T ^ 2 + k.A3 * T ^ 3
    dikyCpig (dikyCoeffs t (dikyCounts c rings)) T =
      some (dikySum t cp c + cp e + rings.count 3 * cp r3 + rings.count 4 * cp r4) := by
  intro cp
  have key : ∀ (rs : List ℕ) (d : Counts), (∀ p ∈ d, (t p.1).isSome) →
      (∀ p ∈ rs.foldl (fun c s => if s = 3 then bump 43 c else if s = 4 then bump 44 c else c) d, (t p.1).isSome) ∧
      ∀ f : DikyRow → ℚ,
        dikySum t f (rs.foldl (fun c s => if s = 3 then bump 43 c else if s = 4 then bump 44 c else c) d) =
          dikySum t f d + rs.count 3 * f r3 + rs.count 4 * f r4 := by
    intro rs
    induction rs with
    | nil => intro d hd; exact ⟨hd, fun f => by simp⟩
    | cons s rs ih =>
      intro d hd
      rw [List.foldl_cons]
      by_cases s3 : s = 3
      · subst s3
        obtain ⟨m, k⟩ := ih (bump 43 d) fun p hp => by
          rcases bump_mem hp with e | ⟨q, hq, e⟩
          · rw [e, h3]; rfl
          · rw [← e]; exact hd q hq
        refine ⟨by simpa using m, fun f => ?_⟩
        rw [if_pos rfl, k f, dikySum_bump, h3, List.count_cons_self, List.count_cons_of_ne (by decide)]
        simp only [Option.map_some, Option.getD_some]
        push_cast
        ring
      · by_cases s4 : s = 4
        · subst s4
          obtain ⟨m, k⟩ := ih (bump 44 d) fun p hp => by
            rcases bump_mem hp with e | ⟨q, hq, e⟩
            · rw [e, h4]; rfl
            · rw [← e]; exact hd q hq
          refine ⟨by simpa using m, fun f => ?_⟩
          rw [if_neg (by decide), if_pos rfl, k f, dikySum_bump, h4, List.count_cons_self,
            List.count_cons_of_ne (by decide)]
          simp only [Option.map_some, Option.getD_some]
          push_cast
          ring
        · obtain ⟨m, k⟩ := ih d hd
          refine ⟨by simpa [s3, s4] using m, fun f => ?_⟩
          rw [if_neg s3, if_neg s4, k f, List.count_cons_of_ne (Ne.symm s3 |>.symm),
            List.count_cons_of_ne (Ne.symm s4 |>.symm)]
  have hset : ∀ p ∈ setCount 42 1 c, (t p.1).isSome := fun p hp => by
    rcases set_mem hp with e' | ⟨q, hq, e'⟩
    · rw [e', he]; rfl
    · rw [← e']; exact (hc q hq).1
  obtain ⟨m, k⟩ := key rings _ hset
  have hs : ∀ f : DikyRow → ℚ, dikySum t f (dikyCounts c rings) =
      dikySum t f c + f e + rings.count 3 * f r3 + rings.count 4 * f r4 := fun f => by
    rw [dikyCounts, k f, dikySum_set t f 42 1 c fun p hp => (hc p hp).2.1, he]
    simp
  have hlin : dikySum t cp c = dikySum t (·.A0) c + dikySum t (·.A1) c * T + dikySum t (·.A2) c * T ^ 2 +
      dikySum t (·.A3) c * T ^ 3 := by
    clear k m hset hs key
    induction c with
    | nil => simp [dikySum]
    | cons p r ih =>
      have ih := ih fun q hq => hc q (by simp [hq])
      obtain ⟨g, hg⟩ := Option.isSome_iff_exists.1 (hc p (by simp)).1
      simp only [dikySum, List.map, List.sum_cons, hg, Option.map_some, Option.getD_some] at ih ⊢
      rw [ih]
      ring
  rw [dikyCoeffs, dikyFold t (dikyCounts c rings) m]
  simp only [dikyCpig, Option.map_some, hs, hlin, Option.some.injEq, cp]
  ring

/-- Two rows and the three whole-molecule rows of the table (joback.py 1038-1043, 1167-1172). -/
def dikyDemo : ℕ → Option DikyRow
  | 1 => some (dikyRow 2.883 11.622 (-6.401) 1.503)
  | 11 => some (dikyRow (-3.203) 8.802 (-2.277) (-0.794))
  | 42 => some (dikyRow 5.675 (-10.825) 15.933 (-7.407))
  | 43 => some (dikyRow 5.523 3.924 (-8.793) 4.542)
  | 44 => some (dikyRow 9.084 (-1.774) 1.903 (-1.011))
  | _ => none

/-- The table holds the coefficients of the powers of the temperature in units of 10⁻², 10⁻⁵ and 10⁻⁸: one group contributes
`A0 + A1 t/100 + A2 t²/10⁵ + A3 t³/10⁸`. -/
theorem C99_diky_units (A0 A1 A2 A3 T : ℚ) :
    dikyCpig (some (dikyRow A0 A1 A2 A3)) T = some (A0 + A1 * (T / 10 ^ 2) + A2 * (T ^ 2 / 10 ^ 5) + A3 * (T ^ 3 / 10 ^ 8)) ∧
      dikyCpig (some (dikyRow A0 A1 A2 A3)) 1000 = some (A0 + 10 * (A1 + A2 + A3)) := by
  constructor <;> simp only [dikyCpig, dikyRow, Option.map_some, Option.some.injEq] <;> ring

example : dikyCpig (some (dikyRow 2.883 11.622 (-6.401) 1.503)) 1000 = some 70.123 := by
  rw [(C99_diky_units _ _ _ _ 0).2]; norm_num

/-- Cyclopropane: three `-CH2-` in a ring of three. -/
example : dikyCpig (dikyCoeffs dikyDemo (dikyCounts [(11, 3)] [3])) 0 = some (3 * (-3.203) + 5.675 + 5.523) := by
  norm_num [dikyCounts, setCount, bump, dikyCoeffs, dikyDemo, dikyRow, dikyCpig]

/-! ## Fedors -/

theorem lookup_put (k k' : String) (v : ℤ) (d : List (String × ℤ)) :
    lookup k (put k' v d) = if k' = k then some v else lookup k d := by
  induction d with
  | nil => simp [put, lookup]
  | cons p r ih =>
    obtain ⟨g, n⟩ := p
    unfold put
    split_ifs with h1 h2 h2
    · subst h1; subst h2; simp [lookup]
    · subst h1; simp [lookup, h2]
    · subst h2
      simp only [lookup, if_neg h1, ih, if_true]
    · simp only [lookup, ih, if_neg h2]

theorem lookup_ensure (k k' : String) (d : List (String × ℤ)) :
    (lookup k (ensure k' d)).getD 0 = (lookup k d).getD 0 := by
  unfold ensure
  rcases h : lookup k' d with _ | v
  · simp only [lookup_put]
    split_ifs with e
    · rw [← e, h]; rfl
    · rfl
  · rfl

/-- **C99.** The critical volume of Fedors: every oxygen counts once, as alcohol or as other oxygen, every nitrogen
once, rings by size, multiple bonds, in cubic metres per mole. -/
theorem C99_fedors (m : FedorsMol) :
    let n (k : String) : ℚ := ((lookup k m.atoms).getD 0 : ℤ)
    fedorsVc m * 1000000 = 26.6 + 34.426 * n "C" + 9.172 * n "H" + 20.291 * (n "O" - m.alcohols) + 18 * m.alcohols +
      48.855 * (n "N" - m.amines) + 47.422 * m.amines + 22.242 * n "F" + 52.801 * n "Cl" + 71.774 * n "Br" +
      96.402 * n "I" + 50.866 * n "S" - 15.824 * m.rings.count 3 - 17.247 * m.rings.count 4 -
      39.126 * m.rings.count 5 - 39.508 * m.rings.count 6 + 5.028 * m.bonds.count (some 2) +
      0.7973 * m.bonds.count (some 3) + 35.524 * m.ringRing := by
  intro n
  have step : ∀ (d : List (String × ℤ)) (v c : ℚ) (k : String),
      (match lookup k d with
        | some n => v + n * c
        | none => v) = v + (((lookup k d).getD 0 : ℤ) : ℚ) * c := by
    intro d v c k
    rcases lookup k d with _ | x <;> simp
  have hn : ∀ k, (((lookup k (ensure "O" (ensure "N" m.atoms))).getD 0 : ℤ) : ℚ) = n k := by
    intro k; rw [lookup_ensure, lookup_ensure]
  unfold fedorsVc
  simp only [step, fedorsTable, List.foldl]
  simp only [fedorsFeatures, lookup_put, String.reduceEq, if_true, if_false, Option.getD_some, hn]
  push_cast
  rw [hn, hn]
  ring

/-- **C99.** The status is `OK` exactly when every element is one of the nine of the method, every bond is single,
double, triple or aromatic, and every ring has three to six atoms. -/
theorem C99_fedors_status (m : FedorsMol) :
    fedorsOk m = true ↔ (∀ p ∈ m.atoms, p.1 ∈ ["C", "H", "O", "N", "F", "Cl", "Br", "I", "S"]) ∧
      (∀ b ∈ m.bonds, b = some 1 ∨ b = some 2 ∨ b = some 3 ∨ b = some 4) ∧ (∀ r ∈ m.rings, 3 ≤ r ∧ r ≤ 6) := by
  have hput : ∀ (k : String) (d : List (String × ℤ)), k ∈ fedorsAllowed →
      ((∀ p ∈ ensure k d, p.1 ∈ fedorsAllowed) ↔ ∀ p ∈ d, p.1 ∈ fedorsAllowed) := by
    intro k d hk
    have hp : ∀ d : List (String × ℤ), ((∀ p ∈ put k 0 d, p.1 ∈ fedorsAllowed) ↔ ∀ p ∈ d, p.1 ∈ fedorsAllowed) := by
      intro d
      induction d with
      | nil => simp [put, hk]
      | cons q r ih =>
        obtain ⟨g, n⟩ := q
        unfold put
        split_ifs with h
        · simp
        · simp only [List.mem_cons, forall_eq_or_imp, ih]
    unfold ensure
    rcases lookup k d with _ | v
    · exact hp d
    · rfl
  have ha : (∀ p ∈ ensure "O" (ensure "N" m.atoms), p.1 ∈ fedorsAllowed) ↔ ∀ p ∈ m.atoms, p.1 ∈ fedorsAllowed := by
    rw [hput _ _ (by decide), hput _ _ (by decide)]
  have hr : ∀ r : ℕ, (r = 3 ∨ r = 4 ∨ r = 5 ∨ r = 6) ↔ (3 ≤ r ∧ r ≤ 6) := by omega
  unfold fedorsOk fedorsFlags
  simp only [Bool.not_or, Bool.and_eq_true, List.not_any_eq_all_not, Bool.not_not, List.all_eq_true, decide_eq_true_eq,
    List.contains_iff_mem, hr]
  rw [ha, and_assoc]
  rfl

/-- Sec-butanol: 274.024 cm³/mol, the example of the documentation (fedors.py 84-86). -/
example : fedorsVc ⟨[("C", 4), ("H", 10), ("O", 1)], 1, 0, [], [some 1, some 1, some 1, some 1], 0⟩ = 0.000274024 ∧
    fedorsOk ⟨[("C", 4), ("H", 10), ("O", 1)], 1, 0, [], [some 1, some 1, some 1, some 1], 0⟩ = true := by
  constructor
  · have h := C99_fedors ⟨[("C", 4), ("H", 10), ("O", 1)], 1, 0, [], [some 1, some 1, some 1, some 1], 0⟩
    simp only [lookup, String.reduceEq, if_true, if_false, Option.getD] at h
    norm_num at h
    linarith
  · decide

/-! ## Wilson and Jasperson -/

/-- Sum over the atoms that have an increment. -/
noncomputable def incTotal (t : String → Option ℝ) (atoms : List (String × ℤ)) : ℝ :=
  (atoms.map fun p => (t p.1).getD 0 * p.2).sum

theorem incLoop_eq (t : String → Option ℝ) (atoms : List (String × ℤ)) (s : ℝ × Bool) :
    incLoop t atoms s = (s.1 + incTotal t atoms, s.2 || atoms.any fun p => (t p.1).isNone) := by
  induction atoms generalizing s with
  | nil => simp [incLoop, incTotal]
  | cons p r ih =>
    obtain ⟨k, n⟩ := p
    rcases h : t k with _ | v
    · simp only [incLoop, h, ih]
      simp [incTotal, h]
    · simp only [incLoop, h, ih]
      simp [incTotal, h, add_assoc]

/-- The quantity whose fifth root divides the boiling point. -/
noncomputable def wjDen (tTc : String → Option ℝ) (gTc : String → ℝ) (atoms groups : List (String × ℤ)) (Nr : ℕ)
    (second : Bool) : ℝ :=
  0.048271 - 0.019846 * Nr + incTotal tTc atoms + if second then (groups.map fun p => gTc p.1 * p.2).sum else 0

/-- **C99.** Wilson and Jasperson: for a positive denominator and a boiling point above zero, the critical temperature
is the boiling point over its fifth root, and lies above the boiling point exactly when the denominator is below
one; the pressure follows from the temperature; and the two flags say exactly whether an atom lacks an increment. -/
theorem C99_wj (tTc tPc : String → Option ℝ) (gTc gPc : String → ℝ) (atoms groups : List (String × ℤ)) (Nr : ℕ)
    (second : Bool) (tb : ℝ) (htb : 0 < tb) (r : WJ)
    (h : wilsonJasperson tTc tPc gTc gPc atoms groups Nr second tb = some r)
    (hd : 0 < wjDen tTc gTc atoms groups Nr second) :
    r.Tc ^ 5 * wjDen tTc gTc atoms groups Nr second = tb ^ 5 ∧ 0 < r.Tc ∧
    (tb < r.Tc ↔ wjDen tTc gTc atoms groups Nr second < 1) ∧
    r.Pc * (Real.exp (-0.00922295 - 0.0290403 * Nr + 0.041 *
      ((if second then (groups.map fun p => gPc p.1 * p.2).sum else 0) + incTotal tPc atoms)) - 0.96601) =
      1862.33 * r.Tc ∧
    (r.missingTc = true ↔ ∃ p ∈ atoms, tTc p.1 = none) ∧ (r.missingPc = true ↔ ∃ p ∈ atoms, tPc p.1 = none) := by
  set D := wjDen tTc gTc atoms groups Nr second with hD
  have hDe : 0.048271 - 0.019846 * (Nr : ℝ) + (0 + incTotal tTc atoms) + groupSum gTc groups second = D := by
    rw [hD, wjDen, groupSum, zero_add]
  unfold wilsonJasperson at h
  simp only [incLoop_eq, hDe] at h
  split_ifs at h with h1 h2
  · have h5 : 0 < D ^ (0.2 : ℝ) := Real.rpow_pos_of_pos hd _
    have hpow : (D ^ (0.2 : ℝ)) ^ 5 = D := by
      rw [← Real.rpow_natCast, ← Real.rpow_mul hd.le]; norm_num
    simp only [Option.some.injEq] at h
    subst h
    push Not at h1
    have hE := h1.2
    simp only [groupSum, zero_add] at hE
    refine ⟨?_, div_pos htb h5, ?_, ?_, ?_, ?_⟩
    · rw [div_pow, hpow]
      field_simp
    · dsimp only
      rw [lt_div_iff₀ h5]
      constructor
      · intro hlt
        have : D ^ (0.2 : ℝ) < 1 := by nlinarith
        rw [← hpow]
        exact pow_lt_one₀ h5.le this (by norm_num)
      · intro hlt
        have : D ^ (0.2 : ℝ) < 1 := Real.rpow_lt_one hd.le hlt (by norm_num)
        nlinarith
    · dsimp only
      simp only [groupSum, zero_add]
      rw [add_comm] at hE
      rw [add_comm (-0.96601), ← sub_eq_add_neg]
      rw [← sub_eq_add_neg] at hE
      field_simp
      norm_num
    · simp [List.any_eq_true, Option.isNone_iff_eq_none]
    · simp [List.any_eq_true, Option.isNone_iff_eq_none]
  · exact absurd hd.le h2

/-- **C99.** For a denominator below zero the code returns two and a half times the boiling point and sets the flag of
missing temperature increments, although no atom need be missing: here a cage of sixty carbon atoms with 32 rings. -/
theorem C99_wj_flag_fails : ∃ (atoms : List (String × ℤ)) (Nr : ℕ) (r : WJ),
    wilsonJasperson wjTcCH wjPcCH (fun _ => 0) (fun _ => 0) atoms [] Nr true 1000 = some r ∧
    (∀ p ∈ atoms, wjTcCH p.1 ≠ none) ∧ r.missingTc = true ∧ r.Tc = 2500 := by
  have hden : (0.048271 : ℝ) - 0.019846 * ((32 : ℕ) : ℝ) + (incLoop wjTcCH [("C", 60)] (0, false)).1 +
      groupSum (fun _ => 0) [] true < 0 := by
    rw [incLoop_eq]
    simp only [incTotal, groupSum, List.map, List.sum_cons, List.sum_nil, wjTcCH, Option.getD_some, if_true]
    norm_num
  have hY : -0.96601 + Real.exp (-0.00922295 - 0.0290403 * ((32 : ℕ) : ℝ) + 0.041 *
      (groupSum (fun _ => 0) [] true + (incLoop wjPcCH [("C", 60)] (0, false)).1)) ≠ 0 := by
    have hp : 0 < -0.00922295 - 0.0290403 * ((32 : ℕ) : ℝ) + 0.041 *
        (groupSum (fun _ => 0) [] true + (incLoop wjPcCH [("C", 60)] (0, false)).1) := by
      rw [incLoop_eq]
      simp only [incTotal, groupSum, List.map, List.sum_cons, List.sum_nil, wjPcCH, Option.getD_some, if_true]
      norm_num
    have := Real.add_one_le_exp (-0.00922295 - 0.0290403 * ((32 : ℕ) : ℝ) + 0.041 *
      (groupSum (fun _ => 0) [] true + (incLoop wjPcCH [("C", 60)] (0, false)).1))
    intro h
    linarith
  have h : wilsonJasperson wjTcCH wjPcCH (fun _ => 0) (fun _ => 0) [("C", 60)] [] 32 true 1000 = some ⟨1000 * 2.5,
      0.0186233 * (1000 * 2.5) / (-0.96601 + Real.exp (-0.00922295 - 0.0290403 * ((32 : ℕ) : ℝ) + 0.041 *
        (groupSum (fun _ => 0) [] true + (incLoop wjPcCH [("C", 60)] (0, false)).1))) * 1e5, true,
      (incLoop wjPcCH [("C", 60)] (0, false)).2⟩ := by
    unfold wilsonJasperson
    dsimp only
    rw [if_neg (not_or.2 ⟨hden.ne, hY⟩), if_neg (not_le.2 hden)]
  exact ⟨[("C", 60)], 32, _, h, by simp [wjTcCH], rfl, by norm_num⟩

/-- **C99.** With its own increments the method puts the critical temperature of every normal alkane of 68 or more
carbon atoms below the boiling point it was given. -/
theorem C99_wj_fails (n : ℕ) (hn : 68 ≤ n) (tb : ℝ) (htb : 0 < tb) : ∃ r : WJ,
    wilsonJasperson wjTcCH wjPcCH (fun _ => 0) (fun _ => 0) [("C", (n : ℤ)), ("H", 2 * (n : ℤ) + 2)] [] 0 true tb =
      some r ∧ r.Tc < tb := by
  have hn' : (68 : ℝ) ≤ n := by exact_mod_cast hn
  have hD : 1 < wjDen wjTcCH (fun _ => 0) [("C", (n : ℤ)), ("H", 2 * (n : ℤ) + 2)] [] 0 true := by
    simp only [wjDen, incTotal, List.map, List.sum_cons, List.sum_nil, wjTcCH, Option.getD_some, if_true]
    push_cast
    linarith
  have hP : 0 < incTotal wjPcCH [("C", (n : ℤ)), ("H", 2 * (n : ℤ) + 2)] := by
    simp only [incTotal, List.map, List.sum_cons, List.sum_nil, wjPcCH, Option.getD_some]
    push_cast
    linarith
  rcases h : wilsonJasperson wjTcCH wjPcCH (fun _ => 0) (fun _ => 0) [("C", (n : ℤ)), ("H", 2 * (n : ℤ) + 2)] [] 0 true
    tb with _ | r
  · exfalso
    unfold wilsonJasperson at h
    simp only [incLoop_eq] at h
    split_ifs at h with h1 h2
    rcases h1 with h1 | h1
    · rw [wjDen] at hD
      simp only [groupSum, zero_add] at h1
      linarith
    · have := Real.add_one_le_exp (-0.00922295 - 0.0290403 * ((0 : ℕ) : ℝ) + 0.041 * (groupSum (fun _ => 0) [] true +
        (0 + incTotal wjPcCH [("C", (n : ℤ)), ("H", 2 * (n : ℤ) + 2)])))
      simp only [groupSum, List.map_nil, List.sum_nil, Nat.cast_zero, mul_zero, if_true, zero_add] at this h1
      linarith
  · refine ⟨r, rfl, ?_⟩
    have key := C99_wj _ _ _ _ _ _ _ _ _ htb r h (by linarith)
    have h5 := key.1
    have hpos := key.2.1
    by_contra hle
    push Not at hle
    have h5' : tb ^ 5 ≤ r.Tc ^ 5 := pow_le_pow_left₀ htb.le hle 5
    have : 0 < r.Tc ^ 5 := by positivity
    nlinarith

/-- Butane: denominator 0.110329, the pressure denominator is positive. -/
example : wjDen wjTcCH (fun _ => 0) [("C", 4), ("H", 10)] [] 0 true = 0.110329 := by
  norm_num [wjDen, incTotal, wjTcCH]

/-- **C99.** The pressure estimate is positive whenever the atoms and groups outweigh the rings: each ring costs
0.0290403, the sum counts 0.041 for each unit. -/
theorem C99_wj_Pc_partial (tTc tPc : String → Option ℝ) (gTc gPc : String → ℝ) (atoms groups : List (String × ℤ))
    (Nr : ℕ) (second : Bool) (tb : ℝ) (htb : 0 < tb) (r : WJ)
    (h : wilsonJasperson tTc tPc gTc gPc atoms groups Nr second tb = some r)
    (hd : 0 < wjDen tTc gTc atoms groups Nr second)
    (hr : 0.0290403 * (Nr : ℝ) ≤ 0.041 *
      ((if second then (groups.map fun p => gPc p.1 * p.2).sum else 0) + incTotal tPc atoms) + 0.0247) : 0 < r.Pc := by
  obtain ⟨-, hT, -, hP, -⟩ := C99_wj tTc tPc gTc gPc atoms groups Nr second tb htb r h hd
  have := Real.add_one_le_exp (-0.00922295 - 0.0290403 * (Nr : ℝ) + 0.041 *
      ((if second then (groups.map fun p => gPc p.1 * p.2).sum else 0) + incTotal tPc atoms))
  by_contra hn
  push Not at hn
  have hpos : 0 < Real.exp (-0.00922295 - 0.0290403 * (Nr : ℝ) + 0.041 *
      ((if second then (groups.map fun p => gPc p.1 * p.2).sum else 0) + incTotal tPc atoms)) - 0.96601 := by linarith
  nlinarith

/-- **C99.** Without second order the matched groups do not enter. -/
theorem C99_wj_first (tTc tPc : String → Option ℝ) (gTc gPc gTc' gPc' : String → ℝ) (atoms groups groups' :
    List (String × ℤ)) (Nr : ℕ) (tb : ℝ) :
    wilsonJasperson tTc tPc gTc gPc atoms groups Nr false tb =
      wilsonJasperson tTc tPc gTc' gPc' atoms groups' Nr false tb := by
  simp [wilsonJasperson, groupSum]

/-! ## Bondi -/

theorem bondi_fold (t : ℕ → Option BondiRow) (c : Counts) (a : ℚ × ℚ) :
    c.foldl (fun (acc : ℚ × ℚ) p => match t p.1 with
      | none => acc
      | some g => (acc.1 + g.Vw * p.2, match g.Aw with
          | none => acc.2
          | some a => acc.2 + a * p.2)) a =
    (a.1 + total (fun g => (t g).map (·.Vw)) c, a.2 + total (fun g => (t g).bind (·.Aw)) c) := by
  induction c generalizing a with
  | nil => simp [total]
  | cons p r ih =>
    rw [List.foldl_cons, ih]
    rcases h : t p.1 with _ | g
    · simp [total, h]
    · rcases hA : g.Aw with _ | x
      · simp [total, h, hA, add_assoc]
      · simp [total, h, hA, add_assoc]

/-- **C99.** Bondi: volume and area are the sums over the groups in SI units; the UNIFAC parameters are the sums over
15.17 cm³/mol and 2.5·10⁹ cm²/mol; and the conversions of `unifac.py` undo those of `bondi.py`. -/
theorem C99_bondi (t : ℕ → Option BondiRow) (c : Counts) :
    bondi t c = (total (fun g => (t g).map (·.Vw)) c / 1000000, total (fun g => (t g).bind (·.Aw)) c * 100000) ∧
    RQ t c = (total (fun g => (t g).map (·.Vw)) c / 15.17, total (fun g => (t g).bind (·.Aw)) c / 2.5) ∧
    (∀ V, vdwVolume (Rvdw V) = V) ∧ (∀ A, vdwArea (Qvdw A) = A) ∧ (∀ R, Rvdw (vdwVolume R) = R) ∧
    ∀ Q, Qvdw (vdwArea Q) = Q := by
  have hb : bondi t c =
      (total (fun g => (t g).map (·.Vw)) c / 1000000, total (fun g => (t g).bind (·.Aw)) c * 100000) := by
    simp only [bondi, bondi_fold, zero_add]
    refine Prod.ext ?_ ?_
    · ring
    · dsimp only; norm_num
  refine ⟨hb, ?_, fun V => ?_, fun A => ?_, fun R => ?_, fun Q => ?_⟩
  · rw [RQ, hb]
    refine Prod.ext ?_ ?_
    · simp only [Rvdw]; ring
    · simp only [Qvdw]; ring
  · simp only [vdwVolume, Rvdw]; norm_num
  · simp only [vdwArea, Qvdw]; norm_num
  · simp only [vdwVolume, Rvdw]; norm_num
  · simp only [vdwArea, Qvdw]; norm_num

/-- **C99.** The rule for normal alkanes in the comment of the table (bondi.py 86): 6.88 + 10.23 n and 1.54 + 1.35 n. -/
theorem C99_bondi_alkane (n : ℕ) :
    bondi bondiCarbon [(4, 2), (3, (n : ℤ) - 2)] =
      ((6.88 + 10.23 * (n : ℚ)) / 1000000, (1.54 + 1.35 * (n : ℚ)) * 100000) := by
  rw [(C99_bondi _ _).1]
  simp only [total, bondiCarbon, List.map, List.sum_cons, List.sum_nil, Option.map_some, Option.bind_some,
    Option.getD_some]
  push_cast
  refine Prod.ext ?_ ?_ <;> dsimp only <;> ring

/-- **C99.** Branched alkanes by their numbers of primary, secondary, tertiary and quaternary carbons, with Bondi's
contributions in cm³/mol and 10⁹ cm²/mol; allene has the volume of two `=CH2` and one `=C=`. -/
theorem C99_bondi_branched (p s t q : ℤ) :
    bondi bondiCarbon [(4, p), (3, s), (2, t), (1, q)] =
      ((13.67 * p + 10.23 * s + 6.78 * t + 3.33 * q : ℚ) / 1000000, (2.12 * p + 1.35 * s + 0.57 * t : ℚ) * 100000) ∧
    (bondi bondiCarbon [(9, 2), (6, 1)]).1 = (11.94 + 6.96 + 11.94) / 1000000 := by
  constructor
  · rw [(C99_bondi _ _).1]
    simp only [total, bondiCarbon, List.map, List.sum_cons, List.sum_nil, Option.map_some, Option.bind_some,
      Option.getD_some]
    refine Prod.ext ?_ ?_ <;> dsimp only <;> norm_num <;> ring
  · rw [(C99_bondi _ _).1]
    norm_num [total, bondiCarbon]

/-- Isobutane and neopentane. -/
example := (C99_bondi_branched 3 0 1 0).1
example := (C99_bondi_branched 4 0 0 1).1

/-- **C99.** A group whose area is not tabulated adds to the volume and not to the area, silently: allene has the area
of its two end groups alone. -/
theorem C99_bondi_fails :
    (bondi bondiCarbon [(9, 2), (6, 1)]).2 = (bondi bondiCarbon [(9, 2)]).2 ∧
    (bondi bondiCarbon [(9, 2)]).1 < (bondi bondiCarbon [(9, 2), (6, 1)]).1 := by
  rw [(C99_bondi _ _).1, (C99_bondi _ _).1]
  norm_num [total, bondiCarbon]

/-- Decane: 109.18 cm³/mol and 1504000 m²/mol, the example of the documentation (bondi.py 802-804). -/
example : bondi bondiCarbon [(4, 2), (3, 8)] = (0.00010918, 1504000) := by
  have h := C99_bondi_alkane 10
  norm_num at h ⊢
  exact h

end Verif.GroupEstimates
