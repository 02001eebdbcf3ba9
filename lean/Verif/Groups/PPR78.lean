import Mathlib.Analysis.SpecialFunctions.Pow.Real
import Mathlib.Analysis.SpecialFunctions.Sqrt
import Mathlib.Algebra.BigOperators.Group.Finset.Basic
import Mathlib.Algebra.BigOperators.Ring.Finset
import Mathlib.Algebra.BigOperators.Field
import Mathlib.Algebra.BigOperators.Fin
import Mathlib.Tactic.NormNum
import Mathlib.Tactic.Linarith
import Mathlib.Tactic.Positivity
import Mathlib.Tactic.FieldSimp
import Mathlib.Tactic.Ring

/-!
# The predictive Peng-Robinson model PPR78 (`thermo/group_contribution/ppr78.py` 251-970)

C100: the completed tables of group interactions, the interaction parameter of a pair and the matrix of a mixture.

Groups are elements of a type; the dictionaries by name and by number (752-768) index the same table. Counts are
natural numbers. `none` is the exception (`KeyError`, `ZeroDivisionError`).
-/

namespace Verif.PPR78

open Finset

/-- A dictionary of pairs of groups. -/
abbrev Dict (G P : Type) := G × G → Option P

section
variable {G P : Type} [DecidableEq G]

/-- `d[k] = v`. -/
def set (d : Dict G P) (k : G × G) (v : P) : Dict G P := fun q => if q = k then some v else d q

/-- The body of the loop of 739-749 for one pair. -/
def step (zero : P) (d : Dict G P) (a b : G) : Dict G P :=
  let d := match d (a, b), d (b, a) with
    | some v, none => set d (b, a) v
    | _, _ => d
  match d (a, b), d (b, a) with
  | none, none => set (set d (a, b) zero) (b, a) zero
  | _, _ => d

/-- The loops of 739-749. -/
def complete (zero : P) (groups : List G) (d : Dict G P) : Dict G P :=
  groups.foldl (fun d a => groups.foldl (fun d b => step zero d a b) d) d

end

/-- A component: groups with counts and the constants of the pure fluid (770). -/
structure Comp (G : Type) where
  keys : Finset G
  count : G → ℕ
  Tc : ℝ
  Pc : ℝ
  omega : ℝ

section
variable {G : Type} [DecidableEq G]

/-- `sum(molecule_groups.values())` (867-868). -/
def Comp.total (c : Comp G) : ℕ := ∑ g ∈ c.keys, c.count g

/-- `alpha.get(group, 0.0)` (870-871, 877-880). -/
noncomputable def Comp.alpha (c : Comp G) (g : G) : ℝ := if g ∈ c.keys then (c.count g : ℝ) / (c.total : ℝ) else 0

/-- `calculate_m` (849-853). -/
noncomputable def calcM (omega : ℝ) : ℝ :=
  if omega ≤ 0.491 then 0.37464 + 1.54226 * omega - 0.26992 * omega ^ 2
  else 0.379642 + 1.48503 * omega - 0.164423 * omega ^ 2 + 0.016666 * omega ^ 3

/-- `OMEGA_A` (845). -/
noncomputable def omegaA : ℝ := 0.4572355289213821893834601962251837888504

/-- `OMEGA_B` (846). -/
noncomputable def omegaB : ℝ := 0.0777960739038884559718447100373331839711

/-- `bi` (856-857). `R` is the gas constant. -/
noncomputable def Comp.b (R : ℝ) (c : Comp G) : ℝ := omegaB * (R * c.Tc / c.Pc)

/-- `ai_T` (863-864). -/
noncomputable def Comp.a (R T : ℝ) (c : Comp G) : ℝ :=
  omegaA * R ^ 2 * c.Tc ^ 2 / c.Pc * (1 + calcM c.omega * (1 - Real.sqrt (T / c.Tc))) ^ 2

/-- The double loop of 874-889; `none` is the `KeyError` of a pair that is not in the table. -/
noncomputable def term1 (d : Dict G (ℝ × ℝ)) (T : ℝ) (c1 c2 : Comp G) : Option ℝ :=
  let u := c1.keys ∪ c2.keys
  if ∀ k ∈ u, ∀ l ∈ u, (d (k, l)).isSome then
    some ((∑ k ∈ u, ∑ l ∈ u,
      match d (k, l) with
      | none => 0
      | some (A, B) =>
        open Classical in
        if A ≠ 0 then
          (c1.alpha k - c2.alpha k) * (c1.alpha l - c2.alpha l) * A * (298.15 / T) ^ (B / A - 1)
        else 0) * (-0.5) * 1e6)
  else none

open Classical in
/-- `PPR78_kij` (836-901); a component with groups whose counts are all zero divides by zero (870-871). -/
noncomputable def kij (R : ℝ) (d : Dict G (ℝ × ℝ)) (T : ℝ) (c1 c2 : Comp G) : Option ℝ :=
  if (c1.keys ≠ ∅ ∧ c1.total = 0) ∨ (c2.keys ≠ ∅ ∧ c2.total = 0) then none
  else
    match term1 d T c1 c2 with
    | none => none
    | some t =>
      let term2 := (Real.sqrt (c1.a R T) / c1.b R - Real.sqrt (c2.a R T) / c2.b R) ^ 2
      let den := 2 * Real.sqrt (c1.a R T * c2.a R T) / (c1.b R * c2.b R)
      if den = 0 then none else some ((t - term2) / den)

/-- `PPR78_kijs` (947-970): the upper triangle is computed and mirrored, the diagonal stays zero. -/
noncomputable def kijs (R : ℝ) (d : Dict G (ℝ × ℝ)) (T : ℝ) {N : ℕ} (c : Fin N → Comp G) (i j : Fin N) : Option ℝ :=
  if i < j then kij R d T (c i) (c j) else if j < i then kij R d T (c j) (c i) else some 0

end

/-- `PPR78_INTERACTIONS` (252-376), groups by `group_id`; generated from the source text. -/
def table78 : List ((ℕ × ℕ) × ℚ × ℚ) := [
  ((1, 1), 0.0, 0.0), ((1, 2), 74.81, 165.7), ((1, 3), 261.5, 388.8), ((1, 4), 396.7, 804.3),
  ((1, 5), 32.94, -35.0), ((1, 6), 8.579, -29.51), ((1, 7), 90.25, 146.1), ((1, 8), 62.80, 41.86),
  ((1, 9), 62.80, 41.86), ((1, 10), 40.38, 95.90), ((1, 11), 98.48, 231.6), ((1, 12), 164.0, 269.0),
  ((1, 13), 52.74, 87.19), ((1, 14), 158.4, 241.2), ((1, 15), 799.9, 2109.0), ((2, 2), 0.0, 0.0),
  ((2, 3), 51.47, 79.61), ((2, 4), 88.53, 315.0), ((2, 5), 36.72, 108.4), ((2, 6), 31.23, 84.76),
  ((2, 7), 29.78, 58.17), ((2, 8), 3.775, 144.8), ((2, 9), 3.775, 144.8), ((2, 10), 12.78, 28.37),
  ((2, 11), -54.90, -319.5), ((2, 12), 136.9, 254.6), ((2, 13), 82.28, 202.8), ((2, 14), 134.6, 138.3),
  ((2, 15), 459.5, 627.3), ((3, 3), 0.0, 0.0), ((3, 4), -305.7, -250.8), ((3, 5), 145.2, 301.6),
  ((3, 6), 174.3, 352.1), ((3, 7), 103.3, 191.8), ((3, 8), 6.177, -33.97), ((3, 9), 6.177, -33.97),
  ((3, 10), 101.9, -90.93), ((3, 11), -226.5, -51.47), ((3, 12), 184.3, 762.1), ((3, 13), 365.4, 521.9),
  ((3, 14), 193.9, 307.8), ((3, 15), 425.5, 514.7), ((4, 4), 0.0, 0.0), ((4, 5), 263.9, 531.5),
  ((4, 6), 333.2, 203.8), ((4, 7), 158.9, 613.2), ((4, 8), 79.61, -326.0), ((4, 9), 79.61, -326.0),
  ((4, 10), 177.1, 601.9), ((4, 11), 17.84, -109.5), ((4, 12), 287.9, 346.2), ((4, 13), 263.9, 772.6),
  ((4, 14), 305.1, -143.1), ((4, 15), 682.9, 1544.0), ((5, 5), 0.0, 0.0), ((5, 6), 13.04, 6.863),
  ((5, 7), 67.26, 167.5), ((5, 8), 139.3, 464.3), ((5, 9), 139.3, 464.3), ((5, 10), 36.37, 26.42),
  ((5, 11), 40.15, 255.3), ((5, 12), 137.3, 194.2), ((5, 13), 37.90, 37.2), ((5, 14), 181.2, 288.9),
  ((5, 15), 706.0, 1483.0), ((6, 6), 0.0, 0.0), ((6, 7), 41.18, 50.79), ((6, 8), -3.088, 13.04),
  ((6, 9), -3.088, 13.04), ((6, 10), 8.579, 76.86), ((6, 11), 10.29, -52.84), ((6, 12), 135.5, 239.5),
  ((6, 13), 61.59, 84.92), ((6, 14), 157.2, 217.1), ((7, 7), 0.0, 0.0), ((7, 8), -13.38, 20.25),
  ((7, 9), -13.38, 20.25), ((7, 10), 29.17, 69.32), ((7, 11), -26.42, -789.2), ((7, 12), 102.6, 161.3),
  ((7, 13), 185.2, 490.6), ((7, 14), 21.96, 13.04), ((7, 15), 285.5, 392.0), ((8, 8), 0.0, 0.0), ((8, 9), 0.0, 0.0),
  ((8, 10), 34.31, 95.39), ((8, 11), -105.7, -286.5), ((8, 12), 110.1, 637.6), ((8, 13), 284.0, 1892.0),
  ((8, 14), 1.029, -8.579), ((8, 15), 1072.0, 1094.0), ((9, 10), 34.31, 95.39), ((9, 11), -105.7, -286.5),
  ((9, 12), 267.3, 444.4), ((9, 13), 718.1, 1892.0), ((9, 14), 1.029, -8.579), ((9, 15), 1072.0, 1094.0),
  ((10, 11), -50.10, -891.1), ((10, 12), 130.1, 225.8), ((10, 13), 179.5, 546.6), ((10, 14), 120.8, 163.0),
  ((10, 15), 446.1, 549.0), ((11, 12), 91.28, 82.01), ((11, 13), 100.9, 249.8), ((11, 14), -16.13, -147.6),
  ((11, 15), 411.8, -308.8), ((12, 13), 98.42, 221.4), ((12, 14), 134.9, 201.4), ((13, 14), 319.5, 550.1),
  ((14, 15), -77.21, 156.1)]

/-- `EPPR78_INTERACTIONS` (379-731), groups by `group_id`; generated from the source text. -/
def tableE78 : List ((ℕ × ℕ) × ℚ × ℚ) := [
  ((1, 2), 65.5, 105.7), ((1, 3), 214.9, 294.9), ((2, 3), 39.0, 41.6), ((1, 4), 431.6, 575.0),
  ((2, 4), 134.5, 183.9), ((3, 4), -86.1, 85.1), ((1, 5), 28.5, 20.2), ((2, 5), 37.7, 74.8), ((3, 5), 131.4, 157.5),
  ((4, 5), 309.5, 35.7), ((1, 6), 3.8, 8.9), ((2, 6), 29.9, 65.9), ((3, 6), 156.1, 96.8), ((4, 6), 388.1, -224.8),
  ((5, 6), 10.0, 13.7), ((1, 7), 98.8, 136.2), ((2, 7), 25.0, 64.5), ((3, 7), 56.6, 129.7), ((4, 7), 170.5, 284.1),
  ((5, 7), 67.3, 167.5), ((6, 7), 41.2, 50.8), ((1, 8), 103.6, 103.6), ((2, 8), 5.1, -7.5), ((3, 8), 48.7, -89.2),
  ((4, 8), 128.3, 189.1), ((5, 8), 106.7, 190.8), ((6, 8), 67.9, 210.7), ((7, 8), -16.5, 16.5),
  ((1, 9), 624.9, 774.1), ((2, 9), -17.8, -4.1), ((5, 9), 249.1, 408.3), ((7, 9), 52.5, 251.2),
  ((8, 9), -328.0, -569.3), ((1, 10), 43.6, 60.1), ((2, 10), 8.6, 27.8), ((3, 10), 73.1, 71.4),
  ((4, 10), 208.6, 294.4), ((5, 10), 34.0, 5.5), ((6, 10), 12.7, 73.4), ((7, 10), 28.8, 65.5),
  ((8, 10), 37.4, 53.5), ((9, 10), 140.7, 277.6), ((1, 11), 293.4, 170.9), ((2, 11), 63.5, -74.5),
  ((3, 11), -120.8, 18.5), ((4, 11), 25.0, 81.3), ((5, 11), 188.0, 473.9), ((6, 11), 118.0, -212.8),
  ((7, 11), 129.0, 36.7), ((8, 11), -99.2, -193.5), ((9, 11), -99.2, -193.5), ((10, 11), 139.0, 35.7),
  ((1, 12), 144.8, 401.5), ((2, 12), 141.4, 237.1), ((3, 12), 191.8, 380.9), ((4, 12), 377.5, 162.7),
  ((5, 12), 136.6, 214.8), ((6, 12), 136.2, 235.7), ((7, 12), 98.5, 253.6), ((8, 12), 154.4, 374.4),
  ((9, 12), 331.1, 276.6), ((10, 12), 144.1, 354.1), ((11, 12), 216.2, -132.8), ((1, 13), 38.1, 88.2),
  ((2, 13), 83.7, 188.7), ((3, 13), 383.6, 375.4), ((4, 13), 341.8, 635.2), ((5, 13), 30.9, 37.1),
  ((6, 13), 61.6, 84.9), ((7, 13), 185.3, 490.7), ((8, 13), 343.8, 1712.3), ((9, 13), 702.4, 1888.7),
  ((10, 13), 179.5, 546.6), ((11, 13), 331.5, 389.8), ((12, 13), 113.9, 212.4), ((1, 14), 159.6, 227.8),
  ((2, 14), 136.6, 124.6), ((3, 14), 192.5, 562.8), ((4, 14), 330.8, -297.2), ((5, 14), 190.1, 307.5),
  ((6, 14), 157.2, 217.1), ((7, 14), 21.3, 6.2), ((8, 14), 9.6, -36.7), ((9, 14), 9.6, -36.7),
  ((10, 14), 117.4, 166.4), ((11, 14), 71.4, -127.7), ((12, 14), 135.2, 199.0), ((13, 14), 319.5, 550.1),
  ((1, 15), 789.6, 1829.0), ((2, 15), 439.9, 504.8), ((3, 15), 374.0, 520.9), ((4, 15), 685.9, 1546.6),
  ((5, 15), 701.7, 1318.4), ((7, 15), 277.6, 449.5), ((8, 15), 1002.0, -736.4), ((9, 15), 1002.0, -736.4),
  ((10, 15), 493.1, 832.1), ((11, 15), 463.2, -337.7), ((14, 15), -157.8, 153.7), ((1, 16), 3557.4, 11194.8),
  ((2, 16), 4324.3, 12126.1), ((3, 16), 971.4, 567.6), ((5, 16), 2277.1, 4719.6), ((6, 16), 2333.4, 5147.2),
  ((7, 16), 2267.5, 6218.5), ((8, 16), 543.5, 411.8), ((9, 16), 1340.3, -65.9), ((10, 16), 4210.7, 13031.3),
  ((11, 16), 244.0, -60.4), ((12, 16), 559.3, 277.9), ((13, 16), 2573.6, 5490.3), ((14, 16), 603.9, 599.1),
  ((15, 16), 30.9, -113.6), ((1, 17), 7.9, 35.0), ((2, 17), 59.7, 82.4), ((3, 17), 147.9, -55.6),
  ((4, 17), 366.8, -219.3), ((5, 17), 19.2, 33.3), ((6, 17), 7.5, 20.9), ((7, 17), 25.7, 78.9),
  ((8, 17), 97.8, 67.9), ((9, 17), 209.7, 3818.9), ((10, 17), 35.3, 52.5), ((11, 17), 297.2, -647.2),
  ((12, 17), 73.1, 106.7), ((13, 17), 45.3, 92.6), ((16, 17), 1650.2, 1660.8), ((1, 18), 48.7, 44.3),
  ((2, 18), 9.6, 50.8), ((3, 18), 84.8, 193.2), ((4, 18), 181.2, 419.0), ((5, 18), 48.7, 68.3),
  ((6, 18), 26.8, -5.1), ((7, 18), 10.0, 19.9), ((8, 18), -48.4, 27.8), ((9, 18), 669.8, 589.5),
  ((10, 18), -15.4, 24.4), ((11, 18), 260.1, 134.9), ((12, 18), 60.7, 183.9), ((13, 18), 59.7, 227.2),
  ((16, 18), 2243.5, 5199.3), ((17, 18), 14.8, 11.3), ((1, 19), 102.6, 260.1), ((2, 19), 64.9, 51.8),
  ((3, 19), 91.6, 54.9), ((7, 19), -16.5, 61.4), ((8, 19), 343.1, 880.2), ((10, 19), 159.6, 140.7),
  ((12, 19), 74.8, -266.6), ((13, 19), 541.5, 94.7), ((17, 19), -518.2, 6814.9), ((18, 19), 24.7, 121.8),
  ((1, 20), 47.0, 169.5), ((2, 20), 34.3, 51.1), ((7, 20), 3.8, 1.7), ((8, 20), 242.9, -7.2),
  ((10, 20), 31.9, 69.3), ((11, 20), 151.3, 2.7), ((12, 20), 87.8, 66.9), ((17, 20), -98.8, 1809.4),
  ((18, 20), 14.1, -12.4), ((19, 20), 23.7, 87.5), ((1, 21), 174.0, 239.5), ((2, 21), 155.4, 240.9),
  ((3, 21), 326.0, 287.9), ((4, 21), 548.3, 2343.0), ((5, 21), 156.1, 93.0), ((6, 21), 137.6, 150.0),
  ((7, 21), 288.9, 189.1), ((8, 21), 400.1, 1201.0), ((9, 21), 602.9, 1463.2), ((10, 21), 236.1, 192.5),
  ((11, 21), -51.8, 34.3), ((12, 21), 261.1, 300.9), ((13, 21), 65.2, 70.1), ((14, 21), 145.8, 823.5),
  ((16, 21), 830.8, -137.9), ((17, 21), 151.3, 165.1), ((18, 21), 175.7, 373.0), ((19, 21), 621.4, 873.6),
  ((20, 21), 460.8, 2167.0), ((1, 22), 119.1, 118.4), ((2, 22), 105.0, 130.4), ((6, 22), 96.1, 123.5),
  ((12, 22), 126.6, 241.2), ((18, 22), 124.9, 219.6), ((1, 23), 123.2, 133.8), ((2, 23), 195.6, 199.0),
  ((3, 23), 531.5, -1945.3), ((4, 23), 413.1, 975.2), ((6, 23), 87.2, 143.8), ((7, 23), 680.1, 421.7),
  ((8, 23), 733.0, 866.8), ((10, 23), 216.2, 343.1), ((12, 23), 156.5, -116.0), ((17, 23), 453.0, -611.5),
  ((18, 23), 155.4, 154.4), ((20, 23), 1231.9, -495.5), ((22, 23), -14.5, -87.1), ((1, 24), 58.3, 65.2),
  ((2, 24), 58.3, 68.6), ((3, 24), -122.8, 458.8), ((4, 24), 479.0, 1430.2), ((6, 24), 79.3, 15.1),
  ((7, 24), -31.6, 43.2), ((8, 24), -8.9, 5.1), ((10, 24), 42.6, -68.6), ((12, 24), 125.2, 340.1),
  ((18, 24), 155.4, 154.4), ((1, 25), -12.3, 16.5), ((6, 25), 95.5, -231.1), ((7, 25), -274.3, -411.7),
  ((8, 25), 78.6, -108.0), ((12, 25), 36.2, 63.5), ((17, 25), -132.7, 548.3), ((18, 25), 88.2, 12.9),
  ((22, 25), 55.9, -193.3), ((23, 25), 17.5, -93.0), ((1, 26), 128.3, 292.4), ((2, 26), 107.1, 119.8),
  ((3, 26), 143.8, 15.8), ((12, 26), 48.7, 751.1), ((18, 26), 76.9, -145.5), ((23, 26), 113.2, 247.1),
  ((24, 26), 120.1, 264.2), ((1, 27), 158.5, 356.5), ((2, 27), 86.5, -40.5), ((3, 27), 121.5, -44.6),
  ((6, 27), 72.4, -305.4), ((12, 27), 29.5, 89.9), ((18, 27), 64.5, -41.9), ((22, 27), 60.7, 217.6),
  ((23, 27), 28.1, 8.2), ((24, 27), 229.9, 259.1), ((26, 27), -4.1, 4.1), ((1, 28), 91.2, 94.2),
  ((2, 28), 44.0, 45.5), ((5, 28), 14.4, 20.9), ((6, 28), 15.4, 33.3), ((7, 28), 153.4, 153.4),
  ((8, 28), 125.8, -231.1), ((9, 28), 197.0, -238.8), ((10, 28), 113.1, 143.6), ((12, 28), 87.8, 190.8),
  ((13, 28), 23.3, -25.4), ((14, 28), 278.6, 404.2), ((16, 28), 715.1, -89.9), ((17, 28), 84.6, -7.5),
  ((21, 28), 75.8, 74.8), ((1, 29), 416.3, 513.4), ((2, 29), 520.5, 673.2), ((3, 29), 728.1, 750.9),
  ((5, 29), 394.5, 378.1), ((6, 29), 581.3, 517.1), ((7, 29), 753.6, 590.5), ((8, 29), 753.6, 590.5),
  ((9, 29), 753.6, 590.5), ((12, 29), 685.9, 559.3), ((13, 29), 204.7, 222.8), ((17, 29), 569.6, 536.7),
  ((18, 29), 644.3, 687.7), ((21, 29), 138.7, 95.5), ((28, 29), 260.1, 259.9), ((1, 30), 11.3, 55.5),
  ((2, 30), 113.6, 231.6), ((3, 30), 185.8, 634.2), ((4, 30), 899.0, 4654.9), ((5, 30), 16.0, 24.5),
  ((6, 30), 43.8, 53.1), ((7, 30), 195.6, 361.3), ((10, 30), 1268.7, 18665.8), ((12, 30), 177.7, 86.8),
  ((13, 30), 6.5, 8.8), ((16, 30), 1197.2, 1211.3), ((18, 30), 203.0, -11.8), ((21, 30), 128.2, 102.9),
  ((28, 30), 4.0, 8.2), ((29, 30), 243.1, 305.6), ((1, 31), 322.2, 201.4), ((2, 31), 55.9, -28.5),
  ((3, 31), -70.0, 233.7), ((5, 31), 205.9, 323.6), ((7, 31), 37.1, -23.7), ((8, 31), -196.6, -397.4),
  ((12, 31), 54.9, 59.0), ((13, 31), 282.4, 362.7), ((16, 31), 374.4, 148.6), ((18, 31), 26.8, 26.8),
  ((19, 31), -141.7, -151.3), ((30, 31), 299.9, 354.1), ((1, 32), 86.1, 87.5), ((2, 32), 107.4, 200.7),
  ((7, 32), 233.3, 404.9), ((8, 32), 216.2, 3826.1), ((10, 32), 181.2, 281.4), ((11, 32), 102.3, 987.9),
  ((12, 32), 154.4, 109.8), ((13, 32), 2.4, 4.8), ((16, 32), 1376.0, 1609.4), ((30, 32), 4.8, 7.9),
  ((31, 32), 339.9, 665.6), ((10, 33), -27.5, 50.1), ((12, 33), 5.1, 48.4), ((13, 33), 258.7, 100.5),
  ((28, 33), 309.2, 28.8), ((30, 33), 110.8, 155.4), ((31, 33), 172.3, 1343.1), ((5, 34), 44.6, -95.1),
  ((12, 34), 83.0, 165.7), ((14, 34), 101.9, 98.1), ((5, 35), 436.1, 958.7), ((13, 35), 585.7, 1011.3),
  ((16, 35), -550.1, -1404.2), ((21, 35), 701.7, 931.3), ((30, 35), 630.0, 1794.0), ((12, 36), 124.9, 241.6),
  ((13, 36), 263.5, 256.0), ((30, 36), 278.6, 274.5), ((32, 36), 271.1, 362.4), ((5, 37), 74.8, 107.1),
  ((12, 37), 3.8, 14.1), ((13, 37), 101.6, 230.9), ((16, 37), 568.9, -144.8), ((32, 37), 120.1, 105.7),
  ((1, 38), -6.9, 41.5), ((2, 38), 421.0, 1193.8), ((6, 38), 137.9, 168.1), ((7, 38), 29.2, 123.5),
  ((16, 38), 436.8, -200.1), ((18, 38), 165.4, 39.8), ((26, 38), -58.7, 303.7), ((35, 38), -56.3, -1.4),
  ((1, 39), 306.1, 1167.0), ((2, 39), 303.3, 316.0), ((3, 39), 206.9, 3975.0), ((7, 39), 96.1, 148.2),
  ((8, 39), 176.0, -459.5), ((10, 39), 496.2, 496.2), ((11, 39), 863.7, 863.7), ((12, 39), 60.1, -81.0),
  ((16, 39), -2395.5, -11671.4), ((18, 39), 134.5, 568.9), ((19, 39), 212.8, -2182.8), ((38, 39), 122.5, 247.8),
  ((1, 40), 72.1, 1219.5), ((2, 40), 488.0, 826.6), ((3, 40), 4.5, -245.3), ((7, 40), 403.9, 403.9),
  ((8, 40), 518.5, 518.5), ((10, 40), 845.9, 845.9), ((18, 40), 255.6, 676.7), ((19, 40), -874.3, 1040.1),
  ((39, 40), -497.6, -824.2)]

/-- A dictionary from its items. -/
def ofList {P : Type} (l : List ((ℕ × ℕ) × P)) : Dict ℕ P := fun q => (l.find? fun p => p.1 = q).map (·.2)

/-! ## Tables -/

section
variable {G P : Type} [DecidableEq G]

/-- What the dictionary holds after completion: the given value, the value of the reversed pair, or zero. -/
def expected (zero : P) (d : Dict G P) (a b : G) : P :=
  match d (a, b) with
  | some v => v
  | none => match d (b, a) with
    | some v => v
    | none => zero

/-- Every entry is the given one, or was absent and is the expected one. -/
def Inv (zero : P) (d cur : Dict G P) : Prop :=
  ∀ a b, cur (a, b) = d (a, b) ∨ (d (a, b) = none ∧ cur (a, b) = some (expected zero d a b))

theorem step_inv {zero : P} {d cur : Dict G P} (h : Inv zero d cur) (a b : G) : Inv zero d (step zero cur a b) := by
  have hab := h a b
  have hba := h b a
  intro x y
  unfold step
  rcases h1 : cur (a, b) with _ | v <;> rcases h2 : cur (b, a) with _ | w
  · simp only [h1, h2]
    rw [h1] at hab
    rw [h2] at hba
    have da : d (a, b) = none := by rcases hab with e | ⟨e, -⟩ <;> [exact e.symm; exact e]
    have db : d (b, a) = none := by rcases hba with e | ⟨e, -⟩ <;> [exact e.symm; exact e]
    unfold set
    by_cases q1 : (x, y) = (b, a)
    · rw [if_pos q1, q1]
      obtain ⟨rfl, rfl⟩ := Prod.mk.inj q1
      exact .inr ⟨db, by simp [expected, da, db]⟩
    · rw [if_neg q1]
      by_cases q2 : (x, y) = (a, b)
      · rw [if_pos q2, q2]
        obtain ⟨rfl, rfl⟩ := Prod.mk.inj q2
        exact .inr ⟨da, by simp [expected, da, db]⟩
      · rw [if_neg q2]; exact h x y
  · simp only [h1, h2]; exact h x y
  · have hs : set cur (b, a) v (b, a) = some v := by simp [set]
    have hne : (a, b) ≠ (b, a) := fun e => by rw [e, h2] at h1; cases h1
    have hs' : set cur (b, a) v (a, b) = some v := by simp [set, hne, h1]
    simp only [hs, hs']
    rw [h2] at hba
    have db : d (b, a) = none := by rcases hba with e | ⟨e, -⟩ <;> [exact e.symm; exact e]
    by_cases q1 : (x, y) = (b, a)
    · obtain ⟨rfl, rfl⟩ := Prod.mk.inj q1
      refine .inr ⟨db, ?_⟩
      rw [hs]
      rw [h1] at hab
      rcases hab with e | ⟨e, e'⟩
      · simp [expected, db, ← e]
      · rw [e']; simp [expected, db, e]
    · have : set cur (b, a) v (x, y) = cur (x, y) := by simp only [set, if_neg q1]
      rw [this]
      exact h x y
  · simp only [h1, h2]; exact h x y

theorem step_mono {zero : P} {cur : Dict G P} {q : G × G} (h : (cur q).isSome) (a b : G) :
    (step zero cur a b q).isSome := by
  unfold step
  have hset : ∀ (d : Dict G P) (k : G × G) (v : P), (d q).isSome → (set d k v q).isSome := by
    intro d k v hd
    unfold set
    split_ifs
    · rfl
    · exact hd
  rcases h1 : cur (a, b) with _ | v <;> rcases h2 : cur (b, a) with _ | w
  · simp only [h1, h2]; exact hset _ _ _ (hset _ _ _ h)
  · simp only [h1, h2]; exact h
  · have hs : set cur (b, a) v (b, a) = some v := by simp [set]
    have hne : (a, b) ≠ (b, a) := fun e => by rw [e, h2] at h1; cases h1
    have hs' : set cur (b, a) v (a, b) = some v := by simp [set, hne, h1]
    simp only [hs, hs']
    exact hset _ _ _ h
  · simp only [h1, h2]; exact h

theorem step_has {zero : P} (cur : Dict G P) (a b : G) : (step zero cur a b (b, a)).isSome := by
  unfold step
  rcases h1 : cur (a, b) with _ | v <;> rcases h2 : cur (b, a) with _ | w
  · simp [h1, h2, set]
  · simp [h1, h2]
  · have hs : set cur (b, a) v (b, a) = some v := by simp [set]
    have hne : (a, b) ≠ (b, a) := fun e => by rw [e, h2] at h1; cases h1
    have hs' : set cur (b, a) v (a, b) = some v := by simp [set, hne, h1]
    simp only [hs, hs', Option.isSome_some]
  · simp [h1, h2]

theorem inner_inv {zero : P} {d cur : Dict G P} (h : Inv zero d cur) (a : G) (l : List G) :
    Inv zero d (l.foldl (fun d b => step zero d a b) cur) := by
  induction l generalizing cur with
  | nil => exact h
  | cons b r ih => exact ih (step_inv h a b)

theorem inner_mono {zero : P} {cur : Dict G P} {q : G × G} (h : (cur q).isSome) (a : G) (l : List G) :
    (l.foldl (fun d b => step zero d a b) cur q).isSome := by
  induction l generalizing cur with
  | nil => exact h
  | cons b r ih => exact ih (step_mono h a b)

theorem inner_has {zero : P} (cur : Dict G P) (a : G) {l : List G} {b : G} (hb : b ∈ l) :
    (l.foldl (fun d b => step zero d a b) cur (b, a)).isSome := by
  induction l generalizing cur with
  | nil => simp at hb
  | cons c r ih =>
    rcases List.mem_cons.1 hb with rfl | hb
    · exact inner_mono (step_has cur a b) a r
    · exact ih _ hb

theorem complete_inv (zero : P) (groups : List G) (d : Dict G P) : Inv zero d (complete zero groups d) := by
  unfold complete
  suffices ∀ (l : List G) (cur : Dict G P), Inv zero d cur →
      Inv zero d (l.foldl (fun d a => groups.foldl (fun d b => step zero d a b) d) cur) from
    this groups d fun a b => .inl rfl
  intro l
  induction l with
  | nil => exact fun cur h => h
  | cons a r ih => exact fun cur h => ih _ (inner_inv h a groups)

theorem complete_has (zero : P) {groups : List G} (d : Dict G P) {a b : G} (ha : a ∈ groups) (hb : b ∈ groups) :
    (complete zero groups d (b, a)).isSome := by
  unfold complete
  suffices ∀ (l : List G) (cur : Dict G P), ((cur (b, a)).isSome ∨ a ∈ l) →
      (l.foldl (fun d a => groups.foldl (fun d b => step zero d a b) d) cur (b, a)).isSome from this groups d (.inr ha)
  intro l
  induction l with
  | nil => intro cur h; simpa using h
  | cons c r ih =>
    intro cur h
    refine ih _ ?_
    rcases h with h | h
    · exact .inl (inner_mono h c groups)
    · rcases List.mem_cons.1 h with rfl | h
      · exact .inl (inner_has cur a hb)
      · exact .inr h

/-- **C100.** After the completion of the table every pair of groups has an entry: the given one, or that of the
reversed pair, or zero; given entries are never changed. -/
theorem C100_complete (zero : P) (groups : List G) (d : Dict G P) :
    (∀ a ∈ groups, ∀ b ∈ groups, complete zero groups d (a, b) = some (expected zero d a b)) ∧
    ∀ q v, d q = some v → complete zero groups d q = some v := by
  refine ⟨fun a ha b hb => ?_, fun q v hv => ?_⟩
  · have h := complete_has zero d hb ha
    rcases complete_inv zero groups d a b with e | ⟨-, e⟩
    · rw [e] at h ⊢
      obtain ⟨v, hv⟩ := Option.isSome_iff_exists.1 h
      simp [expected, hv]
    · exact e
  · rcases complete_inv zero groups d q.1 q.2 with e | ⟨e, -⟩
    · rw [← hv]; exact e
    · rw [show (q.1, q.2) = q from rfl, hv] at e; cases e

/-- No pair is given in both orders with different values. -/
def Consistent (d : Dict G P) : Prop := ∀ a b v w, d (a, b) = some v → d (b, a) = some w → v = w

/-- **C100.** The completed table of a consistent one is symmetric. -/
theorem C100_table_symmetric (zero : P) (groups : List G) (d : Dict G P) (h : Consistent d) {a b : G} (ha : a ∈ groups)
    (hb : b ∈ groups) : complete zero groups d (a, b) = complete zero groups d (b, a) := by
  rw [(C100_complete zero groups d).1 a ha b hb, (C100_complete zero groups d).1 b hb a ha]
  rcases h1 : d (a, b) with _ | v <;> rcases h2 : d (b, a) with _ | w <;> simp [expected, h1, h2]
  exact h a b v w h1 h2

end

theorem consistent_ofList {P : Type} {l : List ((ℕ × ℕ) × P)}
    (h : ∀ p ∈ l, ∀ q ∈ l, p.1.1 = q.1.2 → p.1.2 = q.1.1 → p.2 = q.2) : Consistent (ofList l) := by
  intro a b v w hv hw
  simp only [ofList, Option.map_eq_some_iff] at hv hw
  obtain ⟨p, hp, rfl⟩ := hv
  obtain ⟨q, hq, rfl⟩ := hw
  have ep : p.1 = (a, b) := by simpa using List.find?_some hp
  have eq : q.1 = (b, a) := by simpa using List.find?_some hq
  exact h p (List.mem_of_find?_eq_some hp) q (List.mem_of_find?_eq_some hq) (by rw [ep, eq]) (by rw [ep, eq])

/-- **C100.** Both shipped tables, completed over their 15 and 40 groups, have an entry for every pair, are symmetric,
and a group does not interact with itself. -/
theorem C100_data :
    (∀ a b, 1 ≤ a → a ≤ 15 → 1 ≤ b → b ≤ 15 →
      (complete (0, 0) (List.range' 1 15) (ofList table78) (a, b)).isSome ∧
      complete (0, 0) (List.range' 1 15) (ofList table78) (a, b) =
        complete (0, 0) (List.range' 1 15) (ofList table78) (b, a) ∧
      complete (0, 0) (List.range' 1 15) (ofList table78) (a, a) = some (0, 0)) ∧
    (∀ a b, 1 ≤ a → a ≤ 40 → 1 ≤ b → b ≤ 40 →
      (complete (0, 0) (List.range' 1 40) (ofList tableE78) (a, b)).isSome ∧
      complete (0, 0) (List.range' 1 40) (ofList tableE78) (a, b) =
        complete (0, 0) (List.range' 1 40) (ofList tableE78) (b, a) ∧
      complete (0, 0) (List.range' 1 40) (ofList tableE78) (a, a) = some (0, 0)) := by
  have c1 : Consistent (ofList table78) := consistent_ofList (by decide +kernel)
  have c2 : Consistent (ofList tableE78) := consistent_ofList (by decide +kernel)
  have self {l : List ((ℕ × ℕ) × ℚ × ℚ)} (h : ∀ p ∈ l, p.1.1 = p.1.2 → p.2 = (0, 0)) (a : ℕ) :
      expected (0, 0) (ofList l) a a = (0, 0) := by
    unfold expected
    rcases e : ofList l (a, a) with _ | v
    · rfl
    · simp only [ofList, Option.map_eq_some_iff] at e
      obtain ⟨p, hp, rfl⟩ := e
      have ep : p.1 = (a, a) := by simpa using List.find?_some hp
      exact h p (List.mem_of_find?_eq_some hp) (by rw [ep])
  have s1 := self (l := table78) (by decide +kernel)
  have s2 := self (l := tableE78) (by decide +kernel)
  refine ⟨fun a b a1 a2 b1 b2 => ?_, fun a b a1 a2 b1 b2 => ?_⟩
  · have ha : a ∈ List.range' 1 15 := by rw [List.mem_range'_1]; omega
    have hb : b ∈ List.range' 1 15 := by rw [List.mem_range'_1]; omega
    refine ⟨?_, C100_table_symmetric _ _ _ c1 ha hb, ?_⟩
    · rw [(C100_complete _ _ _).1 a ha b hb]; rfl
    · rw [(C100_complete _ _ _).1 a ha a ha, s1]
  · have ha : a ∈ List.range' 1 40 := by rw [List.mem_range'_1]; omega
    have hb : b ∈ List.range' 1 40 := by rw [List.mem_range'_1]; omega
    refine ⟨?_, C100_table_symmetric _ _ _ c2 ha hb, ?_⟩
    · rw [(C100_complete _ _ _).1 a ha b hb]; rfl
    · rw [(C100_complete _ _ _).1 a ha a ha, s2]

/-- Groups 6 and 15 (ethane, thiol) are absent from the first table and get zero; 15 and 1 get the entry of 1, 15. -/
example : expected (0, 0) (ofList table78) 6 15 = (0, 0) ∧ expected (0, 0) (ofList table78) 15 1 = (799.9, 2109.0) := by
  decide +kernel

/-! ## The interaction parameter -/

section
variable {G : Type} [DecidableEq G]

/-- Interaction of two groups at a temperature. -/
noncomputable def weight (d : Dict G (ℝ × ℝ)) (T : ℝ) (k l : G) : ℝ :=
  match d (k, l) with
  | none => 0
  | some (A, B) => A * (298.15 / T) ^ (B / A - 1)

/-- The energy of the excess function of Péneloux, Abdoul and Rauzy, in pascal: over all groups. -/
noncomputable def energy [Fintype G] (d : Dict G (ℝ × ℝ)) (T : ℝ) (c1 c2 : Comp G) : ℝ :=
  -(1 / 2) * (∑ k, ∑ l, (c1.alpha k - c2.alpha k) * (c1.alpha l - c2.alpha l) * weight d T k l) * 1000000

/-- The ratio called delta in the literature. -/
noncomputable def delta (R T : ℝ) (c : Comp G) : ℝ := Real.sqrt (c.a R T) / c.b R

/-- Constants of a fluid. -/
def Comp.Ok (c : Comp G) : Prop := 0 < c.Tc ∧ 0 < c.Pc

omit [DecidableEq G] in
theorem a_nonneg {R T : ℝ} {c : Comp G} (h : c.Ok) : 0 ≤ c.a R T := by
  obtain ⟨h1, h2⟩ := h
  unfold Comp.a
  have : 0 ≤ omegaA := by unfold omegaA; norm_num
  positivity

omit [DecidableEq G] in
theorem b_pos {R : ℝ} (hR : 0 < R) {c : Comp G} (h : c.Ok) : 0 < c.b R := by
  obtain ⟨h1, h2⟩ := h
  unfold Comp.b
  have : 0 < omegaB := by unfold omegaB; norm_num
  positivity

theorem alpha_off {c : Comp G} {g : G} (h : g ∉ c.keys) : c.alpha g = 0 := by simp [Comp.alpha, h]

theorem term1_eq [Fintype G] {d : Dict G (ℝ × ℝ)} {T : ℝ} {c1 c2 : Comp G} {t : ℝ} (h : term1 d T c1 c2 = some t) :
    t = energy d T c1 c2 := by
  unfold term1 at h
  dsimp only at h
  split_ifs at h with hk
  simp only [Option.some.injEq] at h
  rw [← h, energy]
  have hz : ∀ g, g ∉ c1.keys ∪ c2.keys → c1.alpha g - c2.alpha g = 0 := by
    intro g hg
    rw [mem_union, not_or] at hg
    rw [alpha_off hg.1, alpha_off hg.2, sub_zero]
  have hsum : (∑ k, ∑ l, (c1.alpha k - c2.alpha k) * (c1.alpha l - c2.alpha l) * weight d T k l) =
      ∑ k ∈ c1.keys ∪ c2.keys, ∑ l ∈ c1.keys ∪ c2.keys,
        (c1.alpha k - c2.alpha k) * (c1.alpha l - c2.alpha l) * weight d T k l := by
    symm
    rw [sum_subset (subset_univ _) (fun k _ hk => by simp [hz k hk])]
    refine sum_congr rfl fun k _ => sum_subset (subset_univ _) fun l _ hl => by simp [hz l hl]
  rw [hsum]
  have hterm : ∀ k l, (match d (k, l) with
      | none => 0
      | some (A, B) =>
        open Classical in
        if A ≠ 0 then
          (c1.alpha k - c2.alpha k) * (c1.alpha l - c2.alpha l) * A * (298.15 / T) ^ (B / A - 1)
        else 0) = (c1.alpha k - c2.alpha k) * (c1.alpha l - c2.alpha l) * weight d T k l := by
    intro k l
    unfold weight
    rcases d (k, l) with _ | ⟨A, B⟩
    · simp
    · dsimp only
      split_ifs with hA
      · ring
      · push Not at hA
        rw [hA]; ring
  simp only [hterm]
  norm_num
  ring

/-- **C100.** When the code returns a parameter it is the documented one: with `E` the energy of the groups and `δ`
the ratio of the root of `a` to `b`, `2 δ₁ δ₂ k = E - (δ₁ - δ₂)²`. -/
theorem C100_kij [Fintype G] {R : ℝ} {d : Dict G (ℝ × ℝ)} {T : ℝ} {c1 c2 : Comp G} (h1 : c1.Ok)
    {k : ℝ} (h : kij R d T c1 c2 = some k) :
    2 * delta R T c1 * delta R T c2 * k = energy d T c1 c2 - (delta R T c1 - delta R T c2) ^ 2 := by
  unfold kij at h
  split_ifs at h with hz
  rcases ht : term1 d T c1 c2 with _ | t
  · simp [ht] at h
  · simp only [ht] at h
    split_ifs at h with hd
    simp only [Option.some.injEq] at h
    have e := term1_eq ht
    have hden : 2 * Real.sqrt (c1.a R T * c2.a R T) / (c1.b R * c2.b R) = 2 * delta R T c1 * delta R T c2 := by
      rw [Real.sqrt_mul (a_nonneg h1), delta, delta]
      ring
    rw [← h, ← e, ← hden, mul_div_cancel₀ _ hd]
    rfl

/-- **C100.** A parameter is returned exactly when no component has groups with all counts zero, every pair of groups
is in the table, and the attraction of neither component vanishes at the temperature. -/
theorem C100_defined {R : ℝ} (hR : 0 < R) {d : Dict G (ℝ × ℝ)} {T : ℝ} {c1 c2 : Comp G} (h1 : c1.Ok) (h2 : c2.Ok) :
    (kij R d T c1 c2).isSome ↔
      (c1.keys = ∅ ∨ c1.total ≠ 0) ∧ (c2.keys = ∅ ∨ c2.total ≠ 0) ∧
      (∀ k ∈ c1.keys ∪ c2.keys, ∀ l ∈ c1.keys ∪ c2.keys, (d (k, l)).isSome) ∧ c1.a R T ≠ 0 ∧ c2.a R T ≠ 0 := by
  have hden : 2 * Real.sqrt (c1.a R T * c2.a R T) / (c1.b R * c2.b R) = 0 ↔ c1.a R T = 0 ∨ c2.a R T = 0 := by
    have hb := (mul_pos (b_pos hR h1) (b_pos hR h2)).ne'
    rw [div_eq_zero_iff, or_iff_left hb, mul_eq_zero, or_iff_right (by norm_num),
      Real.sqrt_eq_zero (mul_nonneg (a_nonneg h1) (a_nonneg h2)), mul_eq_zero]
  unfold kij
  by_cases hz : (c1.keys ≠ ∅ ∧ c1.total = 0) ∨ (c2.keys ≠ ∅ ∧ c2.total = 0)
  · rw [if_pos hz]
    constructor
    · simp
    · rintro ⟨a, b, -⟩
      tauto
  · rw [if_neg hz]
    have hz' : (c1.keys = ∅ ∨ c1.total ≠ 0) ∧ (c2.keys = ∅ ∨ c2.total ≠ 0) := by tauto
    unfold term1
    by_cases hk : ∀ k ∈ c1.keys ∪ c2.keys, ∀ l ∈ c1.keys ∪ c2.keys, (d (k, l)).isSome
    · simp only [if_pos hk]
      by_cases hd : 2 * Real.sqrt (c1.a R T * c2.a R T) / (c1.b R * c2.b R) = 0
      · rw [if_pos hd]
        have := hden.1 hd
        constructor
        · simp
        · rintro ⟨-, -, -, a, b⟩
          tauto
      · rw [if_neg hd]
        have := not_or.1 fun e => hd (hden.2 e)
        exact ⟨fun _ => ⟨hz'.1, hz'.2, hk, this⟩, fun _ => rfl⟩
    · simp only [if_neg hk]
      constructor
      · simp
      · exact fun e => absurd e.2.2.1 hk

/-- **C100.** The parameter does not depend on the order of the two components, exceptions included. -/
theorem C100_symmetric (R : ℝ) (d : Dict G (ℝ × ℝ)) (T : ℝ) (c1 c2 : Comp G) : kij R d T c1 c2 = kij R d T c2 c1 := by
  have ht : term1 d T c1 c2 = term1 d T c2 c1 := by
    unfold term1
    simp only [union_comm c2.keys c1.keys]
    split_ifs with h
    · congr 3
      refine sum_congr rfl fun k _ => sum_congr rfl fun l _ => ?_
      rcases d (k, l) with _ | ⟨A, B⟩
      · rfl
      · dsimp only
        split_ifs
        · ring
        · rfl
    · rfl
  unfold kij
  rw [ht]
  by_cases hz : (c1.keys ≠ ∅ ∧ c1.total = 0) ∨ (c2.keys ≠ ∅ ∧ c2.total = 0)
  · rw [if_pos hz, if_pos hz.symm]
  · rw [if_neg hz, if_neg fun h => hz h.symm]
    have e1 : (Real.sqrt (c1.a R T) / c1.b R - Real.sqrt (c2.a R T) / c2.b R) ^ 2 =
        (Real.sqrt (c2.a R T) / c2.b R - Real.sqrt (c1.a R T) / c1.b R) ^ 2 := by ring
    simp only [e1, mul_comm (c1.a R T), mul_comm (c1.b R)]

/-- **C100.** The matrix of a mixture is symmetric with a zero diagonal, and every entry off the diagonal is the
parameter of its pair. -/
theorem C100_kijs (R : ℝ) (d : Dict G (ℝ × ℝ)) (T : ℝ) {N : ℕ} (c : Fin N → Comp G) (i j : Fin N) :
    kijs R d T c i j = kijs R d T c j i ∧ kijs R d T c i i = some 0 ∧
    (i ≠ j → kijs R d T c i j = kij R d T (c i) (c j)) := by
  refine ⟨?_, by simp [kijs], fun hne => ?_⟩
  · unfold kijs
    rcases lt_trichotomy i j with h | h | h
    · rw [if_pos h, if_neg h.not_gt, if_pos h]
    · rw [h]
    · rw [if_neg h.not_gt, if_pos h, if_pos h]
  · unfold kijs
    rcases lt_or_gt_of_ne hne with h | h
    · rw [if_pos h]
    · rw [if_neg h.not_gt, if_pos h, C100_symmetric]

/-- **C100.** A fluid does not interact with itself: the diagonal that the matrix leaves at zero is what the formula
gives. -/
theorem C100_self [Fintype G] {R : ℝ} {d : Dict G (ℝ × ℝ)} {T : ℝ} {c : Comp G} (h : c.Ok) {k : ℝ}
    (hk : kij R d T c c = some k) (hδ : delta R T c ≠ 0) : k = 0 := by
  have := C100_kij h hk
  simp only [energy, sub_self, zero_mul, mul_zero, sum_const_zero] at this
  have h2 : delta R T c * delta R T c ≠ 0 := mul_ne_zero hδ hδ
  have h3 : (delta R T c * delta R T c) * k = 0 := by linarith
  exact (mul_eq_zero.1 h3).resolve_left h2

/-- **C100.** Only the proportions of the groups matter: multiplying all counts of a component changes nothing. -/
theorem C100_scale (R : ℝ) (d : Dict G (ℝ × ℝ)) (T : ℝ) (c1 c2 : Comp G) (n : ℕ) (hn : 0 < n) :
    kij R d T { c1 with count := fun g => n * c1.count g } c2 = kij R d T c1 c2 := by
  have ht : ({ c1 with count := fun g => n * c1.count g } : Comp G).total = n * c1.total := by
    simp only [Comp.total, mul_sum]
  have ha : ∀ g, ({ c1 with count := fun g => n * c1.count g } : Comp G).alpha g = c1.alpha g := by
    intro g
    unfold Comp.alpha
    rw [ht]
    have hn' : (n : ℝ) ≠ 0 := by exact_mod_cast hn.ne'
    dsimp only
    split_ifs
    · push_cast
      rw [mul_div_mul_left _ _ hn']
    · rfl
  have hz : ({ c1 with count := fun g => n * c1.count g } : Comp G).total = 0 ↔ c1.total = 0 := by
    rw [ht]
    constructor
    · intro h
      rcases Nat.mul_eq_zero.1 h with h | h
      · omega
      · exact h
    · intro h; rw [h, mul_zero]
  have h1 : term1 d T { c1 with count := fun g => n * c1.count g } c2 = term1 d T c1 c2 := by
    unfold term1
    simp only [ha]
  unfold kij
  rw [h1]
  simp only [hz]
  rfl

/-- **C100.** At the reference temperature the energy is the quadratic form of the tabulated `A`. -/
theorem C100_reference [Fintype G] (d : Dict G (ℝ × ℝ)) (c1 c2 : Comp G) :
    energy d 298.15 c1 c2 = -(1 / 2) * (∑ k, ∑ l, (c1.alpha k - c2.alpha k) * (c1.alpha l - c2.alpha l) *
      ((d (k, l)).map (·.1)).getD 0) * 1000000 := by
  unfold energy weight
  congr 2
  refine sum_congr rfl fun k _ => sum_congr rfl fun l _ => ?_
  rcases d (k, l) with _ | ⟨A, B⟩
  · simp
  · dsimp only
    rw [div_self (by norm_num), Real.one_rpow]
    simp

/-- **C100.** Two components that are one group each: the energy is the interaction of these two groups, in pascal,
for a symmetric table in which groups do not interact with themselves. -/
theorem C100_pure_groups [Fintype G] (d : Dict G (ℝ × ℝ)) (T : ℝ) (c1 c2 : Comp G) (g1 g2 : G) (hne : g1 ≠ g2)
    (k1 : c1.keys = {g1}) (k2 : c2.keys = {g2}) (n1 : c1.count g1 ≠ 0) (n2 : c2.count g2 ≠ 0) (A B : ℝ)
    (h12 : d (g1, g2) = some (A, B)) (h21 : d (g2, g1) = some (A, B)) (h11 : d (g1, g1) = some (0, 0))
    (h22 : d (g2, g2) = some (0, 0)) : energy d T c1 c2 = A * (298.15 / T) ^ (B / A - 1) * 1000000 := by
  have a1 : ∀ g, c1.alpha g = if g = g1 then 1 else 0 := by
    intro g
    unfold Comp.alpha Comp.total
    rw [k1, sum_singleton]
    by_cases h : g = g1
    · subst h
      simp [n1]
    · simp [h]
  have a2 : ∀ g, c2.alpha g = if g = g2 then 1 else 0 := by
    intro g
    unfold Comp.alpha Comp.total
    rw [k2, sum_singleton]
    by_cases h : g = g2
    · subst h
      simp [n2]
    · simp [h]
  have w11 : weight d T g1 g1 = 0 := by simp [weight, h11]
  have w22 : weight d T g2 g2 = 0 := by simp [weight, h22]
  have w12 : weight d T g1 g2 = A * (298.15 / T) ^ (B / A - 1) := by simp [weight, h12]
  have w21 : weight d T g2 g1 = A * (298.15 / T) ^ (B / A - 1) := by simp [weight, h21]
  unfold energy
  simp only [a1, a2]
  have hin : ∀ k, (∑ l, ((if k = g1 then (1 : ℝ) else 0) - if k = g2 then 1 else 0) *
      ((if l = g1 then 1 else 0) - if l = g2 then 1 else 0) * weight d T k l) =
      ((if k = g1 then (1 : ℝ) else 0) - if k = g2 then 1 else 0) * (weight d T k g1 - weight d T k g2) := by
    intro k
    simp only [mul_assoc, ← mul_sum]
    congr 1
    simp only [sub_mul, ite_mul, one_mul, zero_mul, sum_sub_distrib, sum_ite_eq', mem_univ, if_true]
  rw [sum_congr rfl fun k _ => hin k]
  simp only [sub_mul, ite_mul, one_mul, zero_mul, sum_sub_distrib, sum_ite_eq', mem_univ, if_true, w11, w22, w12, w21]
  ring

/-- **C100.** What the parameters are for: with them the van der Waals mixing rules reproduce the excess function of
van Laar type, `a / b = Σ zᵢ aᵢ / bᵢ - Σ Σ zᵢ zⱼ bᵢ bⱼ Eᵢⱼ / (2 b)`, for any number of components. -/
theorem C100_van_laar [Fintype G] {R : ℝ} (hR : 0 < R) (d : Dict G (ℝ × ℝ)) (T : ℝ) {N : ℕ} (c : Fin N → Comp G)
    (hc : ∀ i, (c i).Ok) (k : Fin N → Fin N → ℝ) (hk : ∀ i j, kijs R d T c i j = some (k i j)) (z : Fin N → ℝ)
    (hb : ∑ i, z i * (c i).b R ≠ 0) :
    (∑ i, ∑ j, z i * z j * Real.sqrt ((c i).a R T * (c j).a R T) * (1 - k i j)) / (∑ i, z i * (c i).b R) =
      (∑ i, z i * ((c i).a R T / (c i).b R)) -
        (∑ i, ∑ j, z i * z j * (c i).b R * (c j).b R * energy d T (c i) (c j)) / (2 * ∑ i, z i * (c i).b R) := by
  have hδ : ∀ i, delta R T (c i) * (c i).b R = Real.sqrt ((c i).a R T) := fun i =>
    div_mul_cancel₀ _ (b_pos hR (hc i)).ne'
  have hpair : ∀ i j, 2 * delta R T (c i) * delta R T (c j) * k i j =
      energy d T (c i) (c j) - (delta R T (c i) - delta R T (c j)) ^ 2 := by
    intro i j
    by_cases h : i = j
    · subst h
      have : k i i = 0 := by
        have := (C100_kijs R d T c i i).2.1
        rw [hk] at this
        exact Option.some.inj this
      rw [this]
      simp [energy]
    · refine C100_kij (hc i) ?_
      rw [← (C100_kijs R d T c i j).2.2 h, hk]
  have hterm : ∀ i j, z i * z j * Real.sqrt ((c i).a R T * (c j).a R T) * (1 - k i j) =
      z i * z j * (c i).b R * (c j).b R * ((delta R T (c i) ^ 2 + delta R T (c j) ^ 2) / 2) -
        z i * z j * (c i).b R * (c j).b R * energy d T (c i) (c j) / 2 := by
    intro i j
    rw [Real.sqrt_mul (a_nonneg (hc i)), ← hδ i, ← hδ j]
    have := hpair i j
    linear_combination (-(z i * z j * (c i).b R * (c j).b R) / 2) * this
  have hδ2 : ∀ i, (c i).b R * delta R T (c i) ^ 2 = (c i).a R T / (c i).b R := by
    intro i
    have hb := (b_pos hR (hc i)).ne'
    rw [delta, div_pow, Real.sq_sqrt (a_nonneg (hc i))]
    field_simp
  have hsq : (∑ i, ∑ j, z i * z j * (c i).b R * (c j).b R * ((delta R T (c i) ^ 2 + delta R T (c j) ^ 2) / 2)) =
      (∑ i, z i * (c i).b R) * ∑ i, z i * ((c i).a R T / (c i).b R) := by
    have e1 : (∑ i, ∑ j, z i * z j * (c i).b R * (c j).b R * (delta R T (c i) ^ 2 / 2)) =
        (∑ i, z i * (c i).b R) * (∑ i, z i * ((c i).a R T / (c i).b R)) / 2 := by
      rw [mul_comm (∑ i, z i * (c i).b R), sum_mul_sum, sum_div]
      refine sum_congr rfl fun i _ => ?_
      rw [sum_div]
      refine sum_congr rfl fun j _ => ?_
      rw [← hδ2 i]
      ring
    have e2 : (∑ i, ∑ j, z i * z j * (c i).b R * (c j).b R * (delta R T (c j) ^ 2 / 2)) =
        (∑ i, z i * (c i).b R) * (∑ i, z i * ((c i).a R T / (c i).b R)) / 2 := by
      rw [sum_mul_sum, sum_div]
      refine sum_congr rfl fun i _ => ?_
      rw [sum_div]
      refine sum_congr rfl fun j _ => ?_
      rw [← hδ2 j]
      ring
    simp only [add_div, mul_add, sum_add_distrib, e1, e2]
    ring
  simp only [hterm, sum_sub_distrib, hsq, ← sum_div]
  field_simp

end

/-- Methane and ethane as groups 5 and 6 of the table. -/
noncomputable def methane : Comp (Fin 16) := ⟨{5}, fun _ => 1, 190.564, 4599200, 0.01142⟩

/-- See `methane`. -/
noncomputable def ethane : Comp (Fin 16) := ⟨{6}, fun _ => 1, 305.322, 4872200, 0.0995⟩

/-- A table with the entry of the two (ppr78.py, pair `CH4`, `C2H6`) and zero elsewhere. -/
noncomputable def demoTable : Dict (Fin 16) (ℝ × ℝ) := fun q =>
  if q = (5, 6) ∨ q = (6, 5) then some (13.04, 6.863) else some (0, 0)

/-- The hypotheses are met by methane and ethane at the reference temperature. -/
example : methane.Ok ∧ ethane.Ok ∧ energy demoTable 298.15 methane ethane = 13040000 ∧
    (kij 8.314 demoTable 298.15 methane ethane).isSome := by
  have m : methane.Ok := by constructor <;> norm_num [methane]
  have e : ethane.Ok := by constructor <;> norm_num [ethane]
  refine ⟨m, e, ?_, ?_⟩
  · rw [C100_pure_groups demoTable 298.15 methane ethane 5 6 (by decide) rfl rfl (by simp [methane]) (by simp [ethane])
      13.04 6.863 (by simp [demoTable]) (by simp [demoTable]) (by simp [demoTable]) (by simp [demoTable]),
      div_self (by norm_num), Real.one_rpow]
    norm_num
  · have hpos : ∀ {x : ℝ}, 1 ≤ x → x ≤ 2.25 → 1 ≤ Real.sqrt x ∧ Real.sqrt x ≤ 1.5 := by
      intro x h1 h2
      refine ⟨Real.one_le_sqrt.2 h1, ?_⟩
      rw [Real.sqrt_le_left (by norm_num)]
      linarith
    have hle : Real.sqrt (298.15 / 305.322) ≤ 1 := by
      exact Real.sqrt_le_one.2 (by norm_num)
    have h1 := hpos (x := 298.15 / 190.564) (by norm_num) (by norm_num)
    rw [C100_defined (by norm_num) m e]
    refine ⟨.inr (by simp [methane, Comp.total]), .inr (by simp [ethane, Comp.total]), ?_, ?_, ?_⟩
    · intro k _ l _
      unfold demoTable
      split_ifs <;> rfl
    · unfold Comp.a
      have hM : calcM methane.omega = 0.37464 + 1.54226 * 0.01142 - 0.26992 * 0.01142 ^ 2 := by
        unfold calcM; rw [if_pos (by norm_num [methane])]; rfl
      have : (0 : ℝ) < 1 + calcM methane.omega * (1 - Real.sqrt (298.15 / methane.Tc)) := by
        rw [hM]
        change (0 : ℝ) < 1 + _ * (1 - Real.sqrt (298.15 / 190.564))
        nlinarith [h1.2]
      have hA : (0 : ℝ) < omegaA := by unfold omegaA; norm_num
      have := m.1
      have := m.2
      positivity
    · unfold Comp.a
      have hM : calcM ethane.omega = 0.37464 + 1.54226 * 0.0995 - 0.26992 * 0.0995 ^ 2 := by
        unfold calcM; rw [if_pos (by norm_num [ethane])]; rfl
      have : (0 : ℝ) < 1 + calcM ethane.omega * (1 - Real.sqrt (298.15 / ethane.Tc)) := by
        rw [hM]
        change (0 : ℝ) < 1 + _ * (1 - Real.sqrt (298.15 / 305.322))
        nlinarith [hle]
      have hA : (0 : ℝ) < omegaA := by unfold omegaA; norm_num
      have := e.1
      have := e.2
      positivity

/-- **C100.** The two constants make the cubic of Peng and Robinson have a triple root at the critical point, to
thirty-five digits. -/
theorem C100_constants : |64 * omegaB ^ 3 + 6 * omegaB ^ 2 + 12 * omegaB - 1| < 1 / 10 ^ 35 ∧
    |(1 - omegaB) ^ 2 / 3 + 2 * omegaB + 3 * omegaB ^ 2 - omegaA| < 1 / 10 ^ 35 := by
  unfold omegaA omegaB
  constructor <;> rw [abs_lt] <;> constructor <;> norm_num

/-- **C100.** The parameters of the pure fluids are the documented ones. The two polynomials of the acentric factor
differ by less than 0.005 where they meet. -/
theorem C100_parameters {G : Type} (R T : ℝ) (c : Comp G) :
    c.b R = omegaB * R * c.Tc / c.Pc ∧
    (c.omega ≤ 0.491 → c.a R T = omegaA * R ^ 2 * c.Tc ^ 2 / c.Pc *
      (1 + (0.37464 + 1.54226 * c.omega - 0.26992 * c.omega ^ 2) * (1 - Real.sqrt (T / c.Tc))) ^ 2) ∧
    (0.491 < c.omega → c.a R T = omegaA * R ^ 2 * c.Tc ^ 2 / c.Pc *
      (1 + (0.379642 + 1.48503 * c.omega - 0.164423 * c.omega ^ 2 + 0.016666 * c.omega ^ 3) *
        (1 - Real.sqrt (T / c.Tc))) ^ 2) ∧
    ∀ w : ℝ, 0.491 < w → w < 0.4911 → |calcM w - calcM 0.491| < 0.005 := by
  refine ⟨by unfold Comp.b; ring, fun h => ?_, fun h => ?_, fun w h1 h2 => ?_⟩
  · unfold Comp.a calcM
    rw [if_pos h]
  · unfold Comp.a calcM
    rw [if_neg (not_le.2 h)]
  · unfold calcM
    rw [if_neg (not_le.2 h1), if_pos le_rfl, abs_lt]
    constructor <;> nlinarith [mul_pos (sub_pos.2 h1) (sub_pos.2 h2), pow_pos (show (0 : ℝ) < w by linarith) 3,
      mul_pos (mul_pos (sub_pos.2 h1) (sub_pos.2 h2)) (show (0 : ℝ) < w by linarith)]

example : methane.omega ≤ 0.491 ∧ ¬ ({ methane with omega := 0.9 } : Comp (Fin 16)).omega ≤ 0.491 := by
  norm_num [methane]

/-- **C100, refuted.** The formula of the documentation multiplies by `B / A - 1` instead of raising to this power:
for methane and ethane at the reference temperature it has the wrong sign. -/
theorem C100_doc_fails :
    -(1 / 2) * (∑ k, ∑ l, (methane.alpha k - ethane.alpha k) * (methane.alpha l - ethane.alpha l) *
      (match demoTable (k, l) with
        | none => 0
        | some (A, B) => A * (298.15 / 298.15) * (B / A - 1))) * 1000000 = -6177000 ∧
    energy demoTable 298.15 methane ethane = 13040000 := by
  constructor
  · have a1 : ∀ g, methane.alpha g = if g = 5 then 1 else 0 := by
      intro g; by_cases h : g = 5 <;> simp [methane, Comp.alpha, Comp.total, h]
    have a2 : ∀ g, ethane.alpha g = if g = 6 then 1 else 0 := by
      intro g; by_cases h : g = 6 <;> simp [ethane, Comp.alpha, Comp.total, h]
    have hw : ∀ k l : Fin 16, (match demoTable (k, l) with
        | none => 0
        | some (A, B) => A * (298.15 / 298.15) * (B / A - 1)) =
        if (k, l) = (5, 6) ∨ (k, l) = (6, 5) then (-6.177 : ℝ) else 0 := by
      intro k l
      unfold demoTable
      split_ifs <;> norm_num
    simp only [hw, a1, a2, Fin.sum_univ_succ, Fin.sum_univ_zero]
    norm_num [Fin.ext_iff, Fin.val_succ]
  · rw [C100_pure_groups demoTable 298.15 methane ethane 5 6 (by decide) rfl rfl (by simp [methane]) (by simp [ethane])
      13.04 6.863 (by simp [demoTable]) (by simp [demoTable]) (by simp [demoTable]) (by simp [demoTable]),
      div_self (by norm_num), Real.one_rpow]
    norm_num

/-- **C100, refuted.** A pair for which no parameters were fitted is not reported: ethane and the thiol group (6 and
15) of the first table get the interaction of equal groups, zero. -/
theorem C100_missing_fails : ofList table78 (6, 15) = none ∧ ofList table78 (15, 6) = none ∧
    complete (0, 0) (List.range' 1 15) (ofList table78) (6, 15) = some (0, 0) := by
  have h1 : ofList table78 (6, 15) = none := by decide +kernel
  have h2 : ofList table78 (15, 6) = none := by decide +kernel
  refine ⟨h1, h2, ?_⟩
  rw [(C100_complete _ _ _).1 6 (by decide) 15 (by decide)]
  simp [expected, h1, h2]

end Verif.PPR78
