import Verif.Util.Deriv
import Mathlib.Analysis.Calculus.Deriv.Polynomial

/-!
# C33: temperature derivatives of the attraction, alpha functions

`thermo/eos_alpha_functions.py`: the `*_alpha_pure` functions (1256-1339) and the `a_alpha_and_derivatives_pure`
methods of the alpha classes (1349-2517). `a_alpha_pure` of each class is `a` times its `*_alpha_pure` function;
the vectorized methods of `Twu91_a_alpha`, `Mathias_Copeman_poly_a_alpha` and `Soave_1979_a_alpha` repeat the
same expressions per component and are not repeated here.

The specification is `Verif.Exact`. Reals instead of floats; `x**y` with a real exponent is the real power of a
positive base. `horner` and `horner_and_der2` of `fluids` are polynomial evaluation and evaluation of the first
two derivatives.
-/

namespace Verif.AlphaFns

open Verif

noncomputable section

variable {a Tc T : ℝ}

/-! ### Definitions -/

/-- `Soave_1972_alpha_pure` (1264-1266). -/
def Soave_1972_alpha (Tc c0 T : ℝ) : ℝ :=
  (c0 * (-√(T / Tc) + 1) + 1) ^ 2

/-- `Soave_1972_a_alpha.a_alpha_and_derivatives_pure` (1421-1426). -/
def Soave_1972_full (a Tc c0 T : ℝ) : V3 :=
  ⟨a * (c0 * (-√(T / Tc) + 1) + 1) ^ 2,
    -a * c0 * √(T / Tc) * (c0 * (-√(T / Tc) + 1) + 1) / T,
    a * c0 * (c0 / Tc - √(T / Tc) * (c0 * (√(T / Tc) - 1) - 1) / T) / (2 * T)⟩

/-- `Harmens_Knapp_alpha_pure` (1271-1272). -/
def Harmens_Knapp_alpha (Tc c1 c2 T : ℝ) : ℝ :=
  (c1 * (-√(T / Tc) + 1) - c2 * (1 - Tc / T) + 1) ^ 2

/-- `Harmens_Knapp_a_alpha.a_alpha_and_derivatives_pure` (1481-1486). -/
def Harmens_Knapp_full (a Tc c1 c2 T : ℝ) : V3 :=
  ⟨a * (c1 * (-√(T / Tc) + 1) - c2 * (1 - Tc / T) + 1) ^ 2,
    a * (-c1 * √(T / Tc) / T - 2 * Tc * c2 / T ^ 2) * (c1 * (-√(T / Tc) + 1) - c2 * (1 - Tc / T) + 1),
    a * ((c1 * √(T / Tc) + 2 * Tc * c2 / T) ^ 2 - (c1 * √(T / Tc) + 8 * Tc * c2 / T) * (c1 * (√(T / Tc) - 1)
      + c2 * (1 - Tc / T) - 1)) / (2 * T ^ 2)⟩

/-- `Mathias_1983_alpha_pure` (1274-1276). -/
def Mathias_1983_alpha (Tc c1 c2 T : ℝ) : ℝ :=
  let Tr := T / Tc
  (1 + c1 * (1 - √Tr) - c2 * (1 - Tr) * (0.7 - Tr)) ^ 2

/-- `Mathias_1983_a_alpha.a_alpha_and_derivatives_pure` (1512-1518). -/
def Mathias_1983_full (a Tc c1 c2 T : ℝ) : V3 :=
  let Tr := T / Tc
  ⟨a * (1 + c1 * (1 - √Tr) - c2 * (1 - Tr) * (0.7 - Tr)) ^ 2,
    a * (c1 * (-√(T / Tc) + 1) - c2 * (-T / Tc + 0.7) * (-T / Tc + 1) + 1) * (2 * c2 * (-T / Tc + 0.7) / Tc + 2
      * c2 * (-T / Tc + 1) / Tc - c1 * √(T / Tc) / T),
    a * ((8 * c2 / Tc ^ 2 - c1 * √(T / Tc) / T ^ 2) * (c1 * (√(T / Tc) - 1) + c2 * (T / Tc - 1) * (T / Tc
      - 0.7) - 1) + (2 * c2 * (T / Tc - 1) / Tc + 2 * c2 * (T / Tc - 0.7) / Tc + c1 * √(T / Tc) / T) ^ 2) / 2⟩

/-- `Mathias_Copeman_untruncated_alpha_pure` (1278-1279). -/
def Mathias_Copeman_untruncated_alpha (Tc c1 c2 c3 T : ℝ) : ℝ :=
  (c1 * (-√(T / Tc) + 1) + c2 * (-√(T / Tc) + 1) ^ 2 + c3 * (-√(T / Tc) + 1) ^ 3 + 1) ^ 2

/-- `Mathias_Copeman_untruncated_a_alpha.a_alpha_and_derivatives_pure` (1546-1551). -/
def Mathias_Copeman_untruncated_full (a Tc c1 c2 c3 T : ℝ) : V3 :=
  ⟨a * (c1 * (-√(T / Tc) + 1) + c2 * (-√(T / Tc) + 1) ^ 2 + c3 * (-√(T / Tc) + 1) ^ 3 + 1) ^ 2,
    a * (-c1 * √(T / Tc) / T - 2 * c2 * √(T / Tc) * (-√(T / Tc) + 1) / T - 3 * c3 * √(T / Tc) * (-√(T / Tc)
      + 1) ^ 2 / T) * (c1 * (-√(T / Tc) + 1) + c2 * (-√(T / Tc) + 1) ^ 2 + c3 * (-√(T / Tc) + 1) ^ 3 + 1),
    a * (T * (c1 - 2 * c2 * (√(T / Tc) - 1) + 3 * c3 * (√(T / Tc) - 1) ^ 2) ^ 2 - (2 * T * (c2 - 3 * c3 * (√(T
      / Tc) - 1)) + Tc * √(T / Tc) * (c1 - 2 * c2 * (√(T / Tc) - 1) + 3 * c3 * (√(T / Tc) - 1) ^ 2)) * (c1
      * (√(T / Tc) - 1) - c2 * (√(T / Tc) - 1) ^ 2 + c3 * (√(T / Tc) - 1) ^ 3 - 1)) / (2 * T ^ 2 * Tc)⟩

/-- `Gibbons_Laughton_alpha_pure` (1299-1300). -/
def Gibbons_Laughton_alpha (Tc c1 c2 T : ℝ) : ℝ :=
  (c1 * (T / Tc - 1) + c2 * (√(T / Tc) - 1) + 1)

/-- `Gibbons_Laughton_a_alpha.a_alpha_and_derivatives_pure` (1716-1721). -/
def Gibbons_Laughton_full (a Tc c1 c2 T : ℝ) : V3 :=
  ⟨a * (c1 * (T / Tc - 1) + c2 * (√(T / Tc) - 1) + 1),
    a * (c1 / Tc + c2 * √(T / Tc) / (2 * T)),
    a * (-c2 * √(T / Tc) / (4 * T ^ 2))⟩

/-- `Soave_1984_alpha_pure` (1302-1303). -/
def Soave_1984_alpha (Tc c1 c2 T : ℝ) : ℝ :=
  (c1 * (-T / Tc + 1) + c2 * (-1 + Tc / T) + 1)

/-- `Soave_1984_a_alpha.a_alpha_and_derivatives_pure` (1746-1751). -/
def Soave_1984_full (a Tc c1 c2 T : ℝ) : V3 :=
  ⟨a * (c1 * (-T / Tc + 1) + c2 * (-1 + Tc / T) + 1),
    a * (-c1 / Tc - Tc * c2 / T ^ 2),
    a * (2 * Tc * c2 / T ^ 3)⟩

/-- `Schwartzentruber_alpha_pure` (1317-1318). -/
def Schwartzentruber_alpha (Tc c1 c2 c3 c4 T : ℝ) : ℝ :=
  ((c4 * (-√(T / Tc) + 1) - (-√(T / Tc) + 1) * (T ^ 2 * c3 / Tc ^ 2 + T * c2 / Tc + c1) + 1) ^ 2)

/-- `Schwartzentruber_a_alpha.a_alpha_and_derivatives_pure` (1890-1895). -/
def Schwartzentruber_full (a Tc c1 c2 c3 c4 T : ℝ) : V3 :=
  ⟨a * ((c4 * (-√(T / Tc) + 1) - (-√(T / Tc) + 1) * (T ^ 2 * c3 / Tc ^ 2 + T * c2 / Tc + c1) + 1) ^ 2),
    a * ((c4 * (-√(T / Tc) + 1) - (-√(T / Tc) + 1) * (T ^ 2 * c3 / Tc ^ 2 + T * c2 / Tc + c1) + 1) * (-2
      * (-√(T / Tc) + 1) * (2 * T * c3 / Tc ^ 2 + c2 / Tc) - c4 * √(T / Tc) / T + √(T / Tc) * (T ^ 2 * c3
      / Tc ^ 2 + T * c2 / Tc + c1) / T)),
    a * (((-c4 * (√(T / Tc) - 1) + (√(T / Tc) - 1) * (T ^ 2 * c3 / Tc ^ 2 + T * c2 / Tc + c1) + 1) * (8 * c3
      * (√(T / Tc) - 1) / Tc ^ 2 + 4 * √(T / Tc) * (2 * T * c3 / Tc + c2) / (T * Tc) + c4 * √(T / Tc) / T ^ 2
      - √(T / Tc) * (T ^ 2 * c3 / Tc ^ 2 + T * c2 / Tc + c1) / T ^ 2) + (2 * (√(T / Tc) - 1) * (2 * T * c3 / Tc
      + c2) / Tc - c4 * √(T / Tc) / T + √(T / Tc) * (T ^ 2 * c3 / Tc ^ 2 + T * c2 / Tc + c1) / T) ^ 2) / 2)⟩

/-- `Soave_1993_alpha_pure` (1323-1324). -/
def Soave_1993_alpha (Tc c1 c2 T : ℝ) : ℝ :=
  (c1 * (-T / Tc + 1) + c2 * (-√(T / Tc) + 1) ^ 2 + 1)

/-- `Soave_1993_a_alpha.a_alpha_and_derivatives_pure` (2089-2094). -/
def Soave_1993_full (a Tc c1 c2 T : ℝ) : V3 :=
  ⟨a * (c1 * (-T / Tc + 1) + c2 * (-√(T / Tc) + 1) ^ 2 + 1),
    a * (-c1 / Tc - c2 * √(T / Tc) * (-√(T / Tc) + 1) / T),
    a * (c2 * (1 / Tc - √(T / Tc) * (√(T / Tc) - 1) / T) / (2 * T))⟩

/-- `Heyen_alpha_pure` (1268-1269). -/
def Heyen_alpha (Tc c1 c2 T : ℝ) : ℝ :=
  Real.exp (c1 * (1 - (T / Tc) ^ c2))

/-- `Heyen_a_alpha.a_alpha_and_derivatives_pure` (1451-1456). -/
def Heyen_full (a Tc c1 c2 T : ℝ) : V3 :=
  ⟨a * Real.exp (c1 * (1 - (T / Tc) ^ c2)),
    -a * c1 * c2 * (T / Tc) ^ c2 * Real.exp (c1 * (-(T / Tc) ^ c2 + 1)) / T,
    a * c1 * c2 * (T / Tc) ^ c2 * (c1 * c2 * (T / Tc) ^ c2 - c2 + 1) * Real.exp (-c1 * ((T / Tc) ^ c2 - 1))
      / T ^ 2⟩

/-- `Yu_Lu_alpha_pure` (1305-1306). -/
def Yu_Lu_alpha (Tc c1 c2 c3 c4 T : ℝ) : ℝ :=
  (10 : ℝ) ^ (c4 * (-T / Tc + 1) * (T ^ 2 * c3 / Tc ^ 2 + T * c2 / Tc + c1))

/-- `Yu_Lu_a_alpha.a_alpha_and_derivatives_pure` (1777-1782). -/
def Yu_Lu_full (a Tc c1 c2 c3 c4 T : ℝ) : V3 :=
  ⟨a * (10 : ℝ) ^ (c4 * (-T / Tc + 1) * (T ^ 2 * c3 / Tc ^ 2 + T * c2 / Tc + c1)),
    a * ((10 : ℝ) ^ (c4 * (-T / Tc + 1) * (T ^ 2 * c3 / Tc ^ 2 + T * c2 / Tc + c1)) * (c4 * (-T / Tc + 1) * (2
      * T * c3 / Tc ^ 2 + c2 / Tc) - c4 * (T ^ 2 * c3 / Tc ^ 2 + T * c2 / Tc + c1) / Tc) * Real.log (10)),
    a * ((10 : ℝ) ^ (-c4 * (T / Tc - 1) * (T ^ 2 * c3 / Tc ^ 2 + T * c2 / Tc + c1)) * c4 * (-4 * T * c3 / Tc
      - 2 * c2 - 2 * c3 * (T / Tc - 1) + c4 * (T ^ 2 * c3 / Tc ^ 2 + T * c2 / Tc + c1 + (T / Tc - 1) * (2 * T
      * c3 / Tc + c2)) ^ 2 * Real.log (10)) * Real.log (10) / Tc ^ 2)⟩

/-- `Trebble_Bishnoi_alpha_pure` (1308-1309). -/
def Trebble_Bishnoi_alpha (Tc c1 T : ℝ) : ℝ :=
  Real.exp (c1 * (-T / Tc + 1))

/-- `Trebble_Bishnoi_a_alpha.a_alpha_and_derivatives_pure` (1804-1809). -/
def Trebble_Bishnoi_full (a Tc c1 T : ℝ) : V3 :=
  ⟨a * Real.exp (c1 * (-T / Tc + 1)),
    a * (-c1) * Real.exp (c1 * (-T / Tc + 1)) / Tc,
    a * c1 ^ 2 * Real.exp (-c1 * (T / Tc - 1)) / Tc ^ 2⟩

/-- `Melhem_alpha_pure` (1311-1312). -/
def Melhem_alpha (Tc c1 c2 T : ℝ) : ℝ :=
  Real.exp (c1 * (-T / Tc + 1) + c2 * (-√(T / Tc) + 1) ^ 2)

/-- `Melhem_a_alpha.a_alpha_and_derivatives_pure` (1832-1837). -/
def Melhem_full (a Tc c1 c2 T : ℝ) : V3 :=
  ⟨a * Real.exp (c1 * (-T / Tc + 1) + c2 * (-√(T / Tc) + 1) ^ 2),
    a * ((-c1 / Tc - c2 * √(T / Tc) * (-√(T / Tc) + 1) / T) * Real.exp (c1 * (-T / Tc + 1) + c2 * (-√(T / Tc)
      + 1) ^ 2)),
    a * (((c1 / Tc - c2 * √(T / Tc) * (√(T / Tc) - 1) / T) ^ 2 + c2 * (1 / Tc - √(T / Tc) * (√(T / Tc) - 1)
      / T) / (2 * T)) * Real.exp (-c1 * (T / Tc - 1) + c2 * (√(T / Tc) - 1) ^ 2))⟩

/-- `Androulakis_alpha_pure` (1314-1315). -/
def Androulakis_alpha (Tc c1 c2 c3 T : ℝ) : ℝ :=
  (c1 * (-(T / Tc) ^ ((2 : ℝ) / 3) + 1) + c2 * (-(T / Tc) ^ ((2 : ℝ) / 3) + 1) ^ 2 + c3 * (-(T / Tc) ^ ((2 : ℝ)
    / 3) + 1) ^ 3 + 1)

/-- `Androulakis_a_alpha.a_alpha_and_derivatives_pure` (1862-1867). -/
def Androulakis_full (a Tc c1 c2 c3 T : ℝ) : V3 :=
  ⟨a * (c1 * (-(T / Tc) ^ ((2 : ℝ) / 3) + 1) + c2 * (-(T / Tc) ^ ((2 : ℝ) / 3) + 1) ^ 2 + c3 * (-(T
      / Tc) ^ ((2 : ℝ) / 3) + 1) ^ 3 + 1),
    a * (-2 * c1 * (T / Tc) ^ ((2 : ℝ) / 3) / (3 * T) - 4 * c2 * (T / Tc) ^ ((2 : ℝ) / 3) * (-(T
      / Tc) ^ ((2 : ℝ) / 3) + 1) / (3 * T) - 2 * c3 * (T / Tc) ^ ((2 : ℝ) / 3) * (-(T / Tc) ^ ((2 : ℝ) / 3)
      + 1) ^ 2 / T),
    a * (2 * (T / Tc) ^ ((2 : ℝ) / 3) * (c1 + 4 * c2 * (T / Tc) ^ ((2 : ℝ) / 3) - 2 * c2 * ((T / Tc) ^ ((2 : ℝ)
      / 3) - 1) - 12 * c3 * (T / Tc) ^ ((2 : ℝ) / 3) * ((T / Tc) ^ ((2 : ℝ) / 3) - 1) + 3 * c3 * ((T
      / Tc) ^ ((2 : ℝ) / 3) - 1) ^ 2) / (9 * T ^ 2))⟩

/-- `Gasem_alpha_pure` (1326-1327). -/
def Gasem_alpha (Tc c1 c2 c3 T : ℝ) : ℝ :=
  (Real.exp ((-(T / Tc) ^ c3 + 1) * (T * c2 / Tc + c1)))

/-- `Gasem_a_alpha.a_alpha_and_derivatives_pure` (2118-2123). -/
def Gasem_full (a Tc c1 c2 c3 T : ℝ) : V3 :=
  ⟨a * (Real.exp ((-(T / Tc) ^ c3 + 1) * (T * c2 / Tc + c1))),
    a * ((c2 * (-(T / Tc) ^ c3 + 1) / Tc - c3 * (T / Tc) ^ c3 * (T * c2 / Tc + c1) / T) * Real.exp ((-(T
      / Tc) ^ c3 + 1) * (T * c2 / Tc + c1))),
    a * (((c2 * ((T / Tc) ^ c3 - 1) / Tc + c3 * (T / Tc) ^ c3 * (T * c2 / Tc + c1) / T) ^ 2 - c3 * (T
      / Tc) ^ c3 * (2 * c2 / Tc + c3 * (T * c2 / Tc + c1) / T - (T * c2 / Tc + c1) / T) / T) * Real.exp (-((T
      / Tc) ^ c3 - 1) * (T * c2 / Tc + c1)))⟩

/-- `Coquelet_alpha_pure` (1329-1330). -/
def Coquelet_alpha (Tc c1 c2 c3 T : ℝ) : ℝ :=
  (Real.exp (c1 * (-T / Tc + 1) * (c2 * (-√(T / Tc) + 1) ^ 2 + c3 * (-√(T / Tc) + 1) ^ 3 + 1) ^ 2))

/-- `Coquelet_a_alpha.a_alpha_and_derivatives_pure` (2150-2155). -/
def Coquelet_full (a Tc c1 c2 c3 T : ℝ) : V3 :=
  ⟨a * (Real.exp (c1 * (-T / Tc + 1) * (c2 * (-√(T / Tc) + 1) ^ 2 + c3 * (-√(T / Tc) + 1) ^ 3 + 1) ^ 2)),
    a * ((c1 * (-T / Tc + 1) * (-2 * c2 * √(T / Tc) * (-√(T / Tc) + 1) / T - 3 * c3 * √(T / Tc) * (-√(T / Tc)
      + 1) ^ 2 / T) * (c2 * (-√(T / Tc) + 1) ^ 2 + c3 * (-√(T / Tc) + 1) ^ 3 + 1) - c1 * (c2 * (-√(T / Tc)
      + 1) ^ 2 + c3 * (-√(T / Tc) + 1) ^ 3 + 1) ^ 2 / Tc) * Real.exp (c1 * (-T / Tc + 1) * (c2 * (-√(T / Tc)
      + 1) ^ 2 + c3 * (-√(T / Tc) + 1) ^ 3 + 1) ^ 2)),
    a * (c1 * (c1 * (-(c2 * (√(T / Tc) - 1) ^ 2 - c3 * (√(T / Tc) - 1) ^ 3 + 1) / Tc + √(T / Tc) * (-2 * c2 + 3
      * c3 * (√(T / Tc) - 1)) * (√(T / Tc) - 1) * (T / Tc - 1) / T) ^ 2 * (c2 * (√(T / Tc) - 1) ^ 2 - c3 * (√(T
      / Tc) - 1) ^ 3 + 1) ^ 2 - ((T / Tc - 1) * (c2 * (√(T / Tc) - 1) ^ 2 - c3 * (√(T / Tc) - 1) ^ 3 + 1) * (2
      * c2 / Tc - 6 * c3 * (√(T / Tc) - 1) / Tc - 2 * c2 * √(T / Tc) * (√(T / Tc) - 1) / T + 3 * c3 * √(T / Tc)
      * (√(T / Tc) - 1) ^ 2 / T) + 4 * √(T / Tc) * (2 * c2 - 3 * c3 * (√(T / Tc) - 1)) * (√(T / Tc) - 1) * (c2
      * (√(T / Tc) - 1) ^ 2 - c3 * (√(T / Tc) - 1) ^ 3 + 1) / Tc + (2 * c2 - 3 * c3 * (√(T / Tc) - 1)) ^ 2
      * (√(T / Tc) - 1) ^ 2 * (T / Tc - 1) / Tc) / (2 * T)) * Real.exp (-c1 * (T / Tc - 1) * (c2 * (√(T / Tc)
      - 1) ^ 2 - c3 * (√(T / Tc) - 1) ^ 3 + 1) ^ 2))⟩

/-- `Haghtalab_alpha_pure` (1332-1333). -/
def Haghtalab_alpha (Tc c1 c2 c3 T : ℝ) : ℝ :=
  Real.exp ((-c3 ^ Real.log (T / Tc) + 1) * (-T * c2 / Tc + c1))

/-- `Haghtalab_a_alpha.a_alpha_and_derivatives_pure` (2180-2185). -/
def Haghtalab_full (a Tc c1 c2 c3 T : ℝ) : V3 :=
  ⟨a * Real.exp ((-c3 ^ Real.log (T / Tc) + 1) * (-T * c2 / Tc + c1)),
    a * ((-c2 * (-c3 ^ Real.log (T / Tc) + 1) / Tc - c3 ^ Real.log (T / Tc) * (-T * c2 / Tc + c1)
      * Real.log (c3) / T) * Real.exp ((-c3 ^ Real.log (T / Tc) + 1) * (-T * c2 / Tc + c1))),
    a * (((c2 * (c3 ^ Real.log (T / Tc) - 1) / Tc + c3 ^ Real.log (T / Tc) * (T * c2 / Tc - c1) * Real.log (c3)
      / T) ^ 2 + c3 ^ Real.log (T / Tc) * (2 * c2 / Tc + (T * c2 / Tc - c1) * Real.log (c3) / T - (T * c2 / Tc
      - c1) / T) * Real.log (c3) / T) * Real.exp ((c3 ^ Real.log (T / Tc) - 1) * (T * c2 / Tc - c1)))⟩

/-- `Saffari_alpha_pure` (1335-1336). -/
def Saffari_alpha (Tc c1 c2 c3 T : ℝ) : ℝ :=
  (Real.exp (T * c1 / Tc + c2 * Real.log (T / Tc) + c3 * (-√(T / Tc) + 1)))

/-- `Saffari_a_alpha.a_alpha_and_derivatives_pure` (2209-2214). -/
def Saffari_full (a Tc c1 c2 c3 T : ℝ) : V3 :=
  ⟨a * (Real.exp (T * c1 / Tc + c2 * Real.log (T / Tc) + c3 * (-√(T / Tc) + 1))),
    a * ((c1 / Tc + c2 / T - c3 * √(T / Tc) / (2 * T)) * Real.exp (T * c1 / Tc + c2 * Real.log (T / Tc) + c3
      * (-√(T / Tc) + 1))),
    a * (((2 * c1 / Tc + 2 * c2 / T - c3 * √(T / Tc) / T) ^ 2 - (4 * c2 - c3 * √(T / Tc)) / T ^ 2)
      * Real.exp (T * c1 / Tc + c2 * Real.log (T / Tc) - c3 * (√(T / Tc) - 1)) / 4)⟩

/-- `Chen_Yang_alpha_pure` (1338-1339). -/
def Chen_Yang_alpha (Tc omega c1 c2 c3 c4 c5 c6 c7 T : ℝ) : ℝ :=
  Real.exp (c4 * Real.log ((-√(T / Tc) + 1) * (c5 + c6 * omega + c7 * omega ^ 2) + 1) ^ 2 + (-T / Tc + 1) * (c1
    + c2 * omega + c3 * omega ^ 2))

/-- `Chen_Yang_a_alpha.a_alpha_and_derivatives_pure` (2239-2244). -/
def Chen_Yang_full (a Tc omega c1 c2 c3 c4 c5 c6 c7 T : ℝ) : V3 :=
  ⟨a * Real.exp (c4 * Real.log ((-√(T / Tc) + 1) * (c5 + c6 * omega + c7 * omega ^ 2) + 1) ^ 2 + (-T / Tc + 1)
      * (c1 + c2 * omega + c3 * omega ^ 2)),
    a * (-(c1 + c2 * omega + c3 * omega ^ 2) / Tc - c4 * √(T / Tc) * (c5 + c6 * omega + c7 * omega ^ 2)
      * Real.log ((-√(T / Tc) + 1) * (c5 + c6 * omega + c7 * omega ^ 2) + 1) / (T * ((-√(T / Tc) + 1) * (c5
      + c6 * omega + c7 * omega ^ 2) + 1))) * Real.exp (c4 * Real.log ((-√(T / Tc) + 1) * (c5 + c6 * omega + c7
      * omega ^ 2) + 1) ^ 2 + (-T / Tc + 1) * (c1 + c2 * omega + c3 * omega ^ 2)),
    a * (((c1 + c2 * omega + c3 * omega ^ 2) / Tc - c4 * √(T / Tc) * (c5 + c6 * omega + c7 * omega ^ 2)
      * Real.log (-(√(T / Tc) - 1) * (c5 + c6 * omega + c7 * omega ^ 2) + 1) / (T * ((√(T / Tc) - 1) * (c5 + c6
      * omega + c7 * omega ^ 2) - 1))) ^ 2 - c4 * (c5 + c6 * omega + c7 * omega ^ 2) * ((c5 + c6 * omega + c7
      * omega ^ 2) * Real.log (-(√(T / Tc) - 1) * (c5 + c6 * omega + c7 * omega ^ 2) + 1) / (Tc * ((√(T / Tc)
      - 1) * (c5 + c6 * omega + c7 * omega ^ 2) - 1)) - (c5 + c6 * omega + c7 * omega ^ 2) / (Tc * ((√(T / Tc)
      - 1) * (c5 + c6 * omega + c7 * omega ^ 2) - 1)) + √(T / Tc) * Real.log (-(√(T / Tc) - 1) * (c5 + c6
      * omega + c7 * omega ^ 2) + 1) / T) / (2 * T * ((√(T / Tc) - 1) * (c5 + c6 * omega + c7 * omega ^ 2)
      - 1))) * Real.exp (c4 * Real.log (-(√(T / Tc) - 1) * (c5 + c6 * omega + c7 * omega ^ 2) + 1) ^ 2 - (T
      / Tc - 1) * (c1 + c2 * omega + c3 * omega ^ 2))⟩

/-- `Soave_1979_alpha_pure` (1260-1262). -/
def Soave_1979_alpha (Tc M N T : ℝ) : ℝ :=
  let Tr := T / Tc
  1 + (1 - Tr) * (M + N / Tr)

/-- `Soave_1979_a_alpha.a_alpha_and_derivatives_pure` (2509-2517). -/
def Soave_1979_full (a Tc M N T : ℝ) : V3 :=
  let T_inv := 1 / T
  let x0 := 1 / Tc
  let x1 := T * x0 - 1
  let x2 := Tc * T_inv
  let x3 := M + N * x2
  let x4 := N * T_inv * T_inv
  ⟨a * (1 - x1 * x3), a * (Tc * x1 * x4 - x0 * x3), a * (2 * x4 * (1 - x1 * x2))⟩

/-- `Twu91_alpha_pure` (1256-1258). -/
def Twu91_alpha (Tc c0 c1 c2 T : ℝ) : ℝ :=
  let Tr := T / Tc
  Tr ^ (c2 * (c1 - 1)) * Real.exp (c0 * (1 - Tr ^ (c1 * c2)))

/-- `Twu91_a_alpha.a_alpha_and_derivatives_pure` (1979-1994). -/
def Twu91_full (a Tc c0 c1 c2 T : ℝ) : V3 :=
  let Tr := T / Tc
  let T_inv := 1 / T
  let x1 := c1 - 1
  let x2 := c2 * x1
  let x3 := c1 * c2
  let x4 := Tr ^ x3
  let x5 := a * Tr ^ x2 * Real.exp (-c0 * (x4 - 1))
  let x6 := c0 * x4
  let x7 := c1 * x6
  let x8 := c2 * x5
  let x9 := c1 * c1 * c2
  ⟨x5, x8 * (x1 - x7) * T_inv,
    x8 * (c0 * c0 * x4 * x4 * x9 - c1 + c2 * x1 * x1 - 2 * x2 * x7 - x6 * x9 + x7 + 1) * T_inv * T_inv⟩

/-- `Almeida_alpha_pure` (1320-1321). -/
def Almeida_alpha (Tc c1 c2 c3 T : ℝ) : ℝ :=
  Real.exp (c1 * (-T / Tc + 1) * |T / Tc - 1| ^ (c2 - 1) + c3 * (-1 + Tc / T))

/-- `Almeida_a_alpha.a_alpha_and_derivatives_pure` (1924-1954), off the critical temperature. -/
def Almeida_full (a Tc c1 c2 c3 T : ℝ) : V3 :=
  let Tr := T / Tc
  if 1 < Tr then
    let x0 := c3 * (1 - Tc / T)
    let x1 := 1 / Tc
    let x2 := T * x1 - 1
    let x3 := c2 - 1
    let x4 := c1 * x2 ^ x3
    let x5 := x2 * x4
    let x6 := Real.exp (-x0 - x5)
    let x7 := Tc * c3
    let x8 := x1 * x4
    let x9 := x3 * x8 + x8 + x7 / T ^ 2
    let x10 := x4 / (Tc ^ 2 * x2)
    ⟨a * Real.exp (-x0 - x5), a * (-x6 * x9),
      a * (x6 * (-x10 * x3 ^ 2 - x10 * x3 + x9 ^ 2 + 2 * x7 / T ^ 3))⟩
  else
    let x0 := c3 * (1 - Tc / T)
    let x1 := 1 / Tc
    let x2 := T * x1
    let x3 := x2 - 1
    let x4 := c2 - 1
    let x5 := c1 * (1 - x2) ^ x4
    let x6 := x3 * x5
    let x7 := Real.exp (-x0 - x6)
    let x8 := Tc * c3
    let x9 := x1 * x5
    let x10 := x4 * x9 + x9 + x8 / T ^ 2
    let x11 := x5 / (Tc ^ 2 * x3)
    ⟨a * Real.exp (-x0 - x6), a * (-x10 * x7),
      a * (x7 * (x10 ^ 2 - x11 * x4 ^ 2 - x11 * x4 + 2 * x8 / T ^ 3))⟩

/-- The same method with Python's division: at the critical temperature `x11 = x5/(Tc**2*x3)` (1952) divides by
zero and raises. -/
def Almeida_raises (a Tc c1 c2 c3 T : ℝ) : Option V3 :=
  if T / Tc = 1 then none else some (Almeida_full a Tc c1 c2 c3 T)

/-- `Mathias_Copeman_original_alpha_pure` (1281-1287). -/
def Mathias_Copeman_alpha (Tc c1 c2 c3 T : ℝ) : ℝ :=
  if T < Tc then
    (c1 * (-√(T / Tc) + 1) + c2 * (-√(T / Tc) + 1) ^ 2 + c3 * (-√(T / Tc) + 1) ^ 3 + 1) ^ 2
  else
    let rt := √(T / Tc)
    let tau := 1 - rt
    let x := 1 + c1 * tau
    x * x

/-- The branch above the critical temperature of `Mathias_Copeman_a_alpha` (1582-1590) and of
`Mathias_Copeman_poly_a_alpha` (1687-1696). -/
def above (a Tc c1 T : ℝ) : V3 :=
  let x0 := 1 / T
  let x1 := 1 / Tc
  let x2 := √(T * x1)
  let x3 := c1 * (x2 - 1) - 1
  let x4 := x0 * x2 * x3
  ⟨a * x3 * x3, a * c1 * x4, 0.5 * a * c1 * x0 * (c1 * x1 - x4)⟩

/-- `Mathias_Copeman_a_alpha.a_alpha_and_derivatives_pure` (1578-1595); the branch below the critical temperature
has the expressions of the untruncated class. -/
def Mathias_Copeman_full (a Tc c1 c2 c3 T : ℝ) : V3 :=
  if 1 < T / Tc then above a Tc c1 T else Mathias_Copeman_untruncated_full a Tc c1 c2 c3 T

/-- `Mathias_Copeman_poly_a_alpha.a_alpha_pure` (1651-1662), equal to `a*Mathias_Copeman_alpha_pure` (1289-1297).
The coefficients, highest power first, are the polynomial `p`; `alpha_coeffs[-2]` is its linear coefficient. -/
def Mathias_Copeman_poly_pure (a Tc : ℝ) (p : Polynomial ℝ) (T : ℝ) : ℝ :=
  let rt := √(T / Tc)
  let tau := 1 - rt
  if T < Tc then
    let x0 := p.eval tau
    x0 * x0 * a
  else
    let x := 1 + p.coeff 1 * tau
    a * x * x

/-- `Mathias_Copeman_poly_a_alpha.a_alpha_and_derivatives_pure` (1665-1696). -/
def Mathias_Copeman_poly_full (a Tc : ℝ) (p : Polynomial ℝ) (T : ℝ) : V3 :=
  let rt := √(T / Tc)
  let tau := 1 - rt
  if T < Tc then
    let x0 := p.eval tau
    let x1 := p.derivative.eval tau
    let x2 := p.derivative.derivative.eval tau
    ⟨x0 * x0 * a, -a * (rt * x0 * x1 / T), a * ((x0 * x2 / Tc + x1 * x1 / Tc + rt * x0 * x1 / T) / (2 * T))⟩
  else above a Tc (p.coeff 1) T

/-- `Poly_a_alpha` (1375-1377, 1396). -/
def Poly_pure (a : ℝ) (p : Polynomial ℝ) (T : ℝ) : ℝ := a * p.eval T
@[inherit_doc Poly_pure] def Poly_full (a : ℝ) (p : Polynomial ℝ) (T : ℝ) : V3 :=
  ⟨a * p.eval T, a * p.derivative.eval T, a * p.derivative.derivative.eval T⟩

/-! ### Exactness -/

set_option maxHeartbeats 2000000 in
/-- **C33.** `Soave_1972_a_alpha`. -/
theorem C33_Soave_1972 (hTc : 0 < Tc) (hT : 0 < T) (c0 : ℝ) :
    Exact (fun t => a * Soave_1972_alpha Tc c0 t) (fun t => Soave_1972_full a Tc c0 t) T := by
  refine Exact.of_pos (fun T hT => ?_) (fun T hT => ?_) (fun T hT => ?_) hT
  · simp only [Soave_1972_full, Soave_1972_alpha]; try (field_simp; try ring)
  all_goals
    have hs := hasDerivAt_sqrtTr hTc hT
    obtain ⟨h1, h2⟩ := sqrtTr hTc hT
    derive [Soave_1972_full, Soave_1972_alpha]
    try generalize √(T / Tc) = s at *
    try subst h2
    field_simp
    try ring

example := C33_Soave_1972 (a := 2) (Tc := 300) (T := 250) (by norm_num) (by norm_num) (1 / 2)

set_option maxHeartbeats 2000000 in
/-- **C33.** `Harmens_Knapp_a_alpha`. -/
theorem C33_Harmens_Knapp (hTc : 0 < Tc) (hT : 0 < T) (c1 c2 : ℝ) :
    Exact (fun t => a * Harmens_Knapp_alpha Tc c1 c2 t) (fun t => Harmens_Knapp_full a Tc c1 c2 t) T := by
  refine Exact.of_pos (fun T hT => ?_) (fun T hT => ?_) (fun T hT => ?_) hT
  · simp only [Harmens_Knapp_full, Harmens_Knapp_alpha]; try (field_simp; try ring)
  all_goals
    have hs := hasDerivAt_sqrtTr hTc hT
    obtain ⟨h1, h2⟩ := sqrtTr hTc hT
    derive [Harmens_Knapp_full, Harmens_Knapp_alpha]
    try generalize √(T / Tc) = s at *
    try subst h2
    field_simp
    try ring

example := C33_Harmens_Knapp (a := 2) (Tc := 300) (T := 250) (by norm_num) (by norm_num) (1 / 2) 3

set_option maxHeartbeats 2000000 in
/-- **C33.** `Mathias_1983_a_alpha`. -/
theorem C33_Mathias_1983 (hTc : 0 < Tc) (hT : 0 < T) (c1 c2 : ℝ) :
    Exact (fun t => a * Mathias_1983_alpha Tc c1 c2 t) (fun t => Mathias_1983_full a Tc c1 c2 t) T := by
  refine Exact.of_pos (fun T hT => ?_) (fun T hT => ?_) (fun T hT => ?_) hT
  · simp only [Mathias_1983_full, Mathias_1983_alpha]; try (field_simp; try ring)
  all_goals
    have hs := hasDerivAt_sqrtTr hTc hT
    obtain ⟨h1, h2⟩ := sqrtTr hTc hT
    derive [Mathias_1983_full, Mathias_1983_alpha]
    try generalize √(T / Tc) = s at *
    try subst h2
    field_simp
    try ring

example := C33_Mathias_1983 (a := 2) (Tc := 300) (T := 250) (by norm_num) (by norm_num) (1 / 2) 3

set_option maxHeartbeats 2000000 in
/-- **C33.** `Mathias_Copeman_untruncated_a_alpha`. -/
theorem C33_Mathias_Copeman_untruncated (hTc : 0 < Tc) (hT : 0 < T) (c1 c2 c3 : ℝ) :
    Exact (fun t => a * Mathias_Copeman_untruncated_alpha Tc c1 c2 c3 t)
      (fun t => Mathias_Copeman_untruncated_full a Tc c1 c2 c3 t) T := by
  refine Exact.of_pos (fun T hT => ?_) (fun T hT => ?_) (fun T hT => ?_) hT
  · simp only [Mathias_Copeman_untruncated_full, Mathias_Copeman_untruncated_alpha]; try (field_simp; try ring)
  all_goals
    have hs := hasDerivAt_sqrtTr hTc hT
    obtain ⟨h1, h2⟩ := sqrtTr hTc hT
    derive [Mathias_Copeman_untruncated_full, Mathias_Copeman_untruncated_alpha]
    try generalize √(T / Tc) = s at *
    try subst h2
    field_simp
    try ring

example := C33_Mathias_Copeman_untruncated (a := 2) (Tc := 300) (T := 250) (by norm_num) (by norm_num) (1 / 2) 3 2

set_option maxHeartbeats 2000000 in
/-- **C33.** `Gibbons_Laughton_a_alpha`. -/
theorem C33_Gibbons_Laughton (hTc : 0 < Tc) (hT : 0 < T) (c1 c2 : ℝ) :
    Exact (fun t => a * Gibbons_Laughton_alpha Tc c1 c2 t) (fun t => Gibbons_Laughton_full a Tc c1 c2 t) T := by
  refine Exact.of_pos (fun T hT => ?_) (fun T hT => ?_) (fun T hT => ?_) hT
  · simp only [Gibbons_Laughton_full, Gibbons_Laughton_alpha]; try (field_simp; try ring)
  all_goals
    have hs := hasDerivAt_sqrtTr hTc hT
    obtain ⟨h1, h2⟩ := sqrtTr hTc hT
    derive [Gibbons_Laughton_full, Gibbons_Laughton_alpha]
    try generalize √(T / Tc) = s at *
    try subst h2
    field_simp
    try ring

example := C33_Gibbons_Laughton (a := 2) (Tc := 300) (T := 250) (by norm_num) (by norm_num) (1 / 2) 3

set_option maxHeartbeats 2000000 in
/-- **C33.** `Soave_1984_a_alpha`. -/
theorem C33_Soave_1984 (hTc : 0 < Tc) (hT : 0 < T) (c1 c2 : ℝ) :
    Exact (fun t => a * Soave_1984_alpha Tc c1 c2 t) (fun t => Soave_1984_full a Tc c1 c2 t) T := by
  refine Exact.of_pos (fun T hT => ?_) (fun T hT => ?_) (fun T hT => ?_) hT
  · simp only [Soave_1984_full, Soave_1984_alpha]; try (field_simp; try ring)
  all_goals
    have hs := hasDerivAt_sqrtTr hTc hT
    obtain ⟨h1, h2⟩ := sqrtTr hTc hT
    derive [Soave_1984_full, Soave_1984_alpha]
    try generalize √(T / Tc) = s at *
    try subst h2
    field_simp
    try ring

example := C33_Soave_1984 (a := 2) (Tc := 300) (T := 250) (by norm_num) (by norm_num) (1 / 2) 3

set_option maxHeartbeats 2000000 in
/-- **C33.** `Schwartzentruber_a_alpha`. -/
theorem C33_Schwartzentruber (hTc : 0 < Tc) (hT : 0 < T) (c1 c2 c3 c4 : ℝ) :
    Exact (fun t => a * Schwartzentruber_alpha Tc c1 c2 c3 c4 t) (fun t => Schwartzentruber_full a Tc c1 c2 c3 c4 t) T := by
  refine Exact.of_pos (fun T hT => ?_) (fun T hT => ?_) (fun T hT => ?_) hT
  · simp only [Schwartzentruber_full, Schwartzentruber_alpha]; try (field_simp; try ring)
  all_goals
    have hs := hasDerivAt_sqrtTr hTc hT
    obtain ⟨h1, h2⟩ := sqrtTr hTc hT
    derive [Schwartzentruber_full, Schwartzentruber_alpha]
    try generalize √(T / Tc) = s at *
    try subst h2
    field_simp
    try ring

example := C33_Schwartzentruber (a := 2) (Tc := 300) (T := 250) (by norm_num) (by norm_num) (1 / 2) 3 2 (1 / 3)

set_option maxHeartbeats 2000000 in
/-- **C33.** `Soave_1993_a_alpha`. -/
theorem C33_Soave_1993 (hTc : 0 < Tc) (hT : 0 < T) (c1 c2 : ℝ) :
    Exact (fun t => a * Soave_1993_alpha Tc c1 c2 t) (fun t => Soave_1993_full a Tc c1 c2 t) T := by
  refine Exact.of_pos (fun T hT => ?_) (fun T hT => ?_) (fun T hT => ?_) hT
  · simp only [Soave_1993_full, Soave_1993_alpha]; try (field_simp; try ring)
  all_goals
    have hs := hasDerivAt_sqrtTr hTc hT
    obtain ⟨h1, h2⟩ := sqrtTr hTc hT
    derive [Soave_1993_full, Soave_1993_alpha]
    try generalize √(T / Tc) = s at *
    try subst h2
    field_simp
    try ring

example := C33_Soave_1993 (a := 2) (Tc := 300) (T := 250) (by norm_num) (by norm_num) (1 / 2) 3

set_option maxHeartbeats 2000000 in
/-- **C33.** `Soave_1979_a_alpha`. -/
theorem C33_Soave_1979 (hTc : 0 < Tc) (hT : 0 < T) (M N : ℝ) :
    Exact (fun t => a * Soave_1979_alpha Tc M N t) (fun t => Soave_1979_full a Tc M N t) T := by
  refine Exact.of_pos (fun T hT => ?_) (fun T hT => ?_) (fun T hT => ?_) hT
  · simp only [Soave_1979_full, Soave_1979_alpha]; try (field_simp; try ring)
  all_goals
    have hs := hasDerivAt_sqrtTr hTc hT
    obtain ⟨h1, h2⟩ := sqrtTr hTc hT
    derive [Soave_1979_full, Soave_1979_alpha]
    try generalize √(T / Tc) = s at *
    try subst h2
    field_simp
    try ring

example := C33_Soave_1979 (a := 2) (Tc := 300) (T := 250) (by norm_num) (by norm_num) (1 / 2) 3

set_option maxHeartbeats 2000000 in
/-- **C33.** `Heyen_a_alpha`. -/
theorem C33_Heyen (hTc : 0 < Tc) (hT : 0 < T) (c1 c2 : ℝ) :
    Exact (fun t => a * Heyen_alpha Tc c1 c2 t) (fun t => Heyen_full a Tc c1 c2 t) T := by
  have e1 : ∀ x, Real.exp (c1 * (-x + 1)) = Real.exp (c1 * (1 - x)) := fun x => by congr 1; ring
  have e2 : ∀ x, Real.exp (-c1 * (x - 1)) = Real.exp (c1 * (1 - x)) := fun x => by congr 1; ring
  refine Exact.of_pos (fun T hT => ?_) (fun T hT => ?_) (fun T hT => ?_) hT
  · simp only [Heyen_full, Heyen_alpha, e1, e2]
  all_goals
    have hs := hasDerivAt_sqrtTr hTc hT
    have hp := hasDerivAt_rpowTr hTc hT c2
    obtain ⟨h1, h2⟩ := sqrtTr hTc hT
    derive [Heyen_full, Heyen_alpha, e1, e2]
    generalize Real.exp _ = E at *
    generalize (T / Tc) ^ c2 = X at *
    try generalize √(T / Tc) = s at *
    try subst h2
    field_simp
    try ring

example := C33_Heyen (a := 2) (Tc := 300) (T := 250) (by norm_num) (by norm_num) (1 / 2) 3

set_option maxHeartbeats 2000000 in
/-- **C33.** `Yu_Lu_a_alpha`. -/
theorem C33_Yu_Lu (hTc : 0 < Tc) (hT : 0 < T) (c1 c2 c3 c4 : ℝ) :
    Exact (fun t => a * Yu_Lu_alpha Tc c1 c2 c3 c4 t) (fun t => Yu_Lu_full a Tc c1 c2 c3 c4 t) T := by
  have e0 : ∀ x : ℝ, (10 : ℝ) ^ x = Real.exp (Real.log 10 * x) := Real.rpow_def_of_pos (by norm_num)
  have e1 : ∀ t q, Real.exp (Real.log 10 * (-c4 * (t / Tc - 1) * q)) = Real.exp (Real.log 10 * (c4 * (-t / Tc + 1) * q)) :=
    fun t q => by congr 1; ring
  refine Exact.of_pos (fun T hT => ?_) (fun T hT => ?_) (fun T hT => ?_) hT
  · simp only [Yu_Lu_full, Yu_Lu_alpha, e0, e1]
  all_goals
    have hs := hasDerivAt_sqrtTr hTc hT
    obtain ⟨h1, h2⟩ := sqrtTr hTc hT
    derive [Yu_Lu_full, Yu_Lu_alpha, e0, e1]
    generalize Real.exp _ = E at *
    try generalize √(T / Tc) = s at *
    try subst h2
    field_simp
    try ring

example := C33_Yu_Lu (a := 2) (Tc := 300) (T := 250) (by norm_num) (by norm_num) (1 / 2) 3 2 (1 / 3)

set_option maxHeartbeats 2000000 in
/-- **C33.** `Trebble_Bishnoi_a_alpha`. -/
theorem C33_Trebble_Bishnoi (hTc : 0 < Tc) (hT : 0 < T) (c1 : ℝ) :
    Exact (fun t => a * Trebble_Bishnoi_alpha Tc c1 t) (fun t => Trebble_Bishnoi_full a Tc c1 t) T := by
  have e1 : ∀ t, Real.exp (-c1 * (t / Tc - 1)) = Real.exp (c1 * (-t / Tc + 1)) := fun t => by congr 1; ring
  refine Exact.of_pos (fun T hT => ?_) (fun T hT => ?_) (fun T hT => ?_) hT
  · simp only [Trebble_Bishnoi_full, Trebble_Bishnoi_alpha, e1]
  all_goals
    have hs := hasDerivAt_sqrtTr hTc hT
    obtain ⟨h1, h2⟩ := sqrtTr hTc hT
    derive [Trebble_Bishnoi_full, Trebble_Bishnoi_alpha, e1]
    generalize Real.exp _ = E at *
    try generalize √(T / Tc) = s at *
    try subst h2
    field_simp
    try ring

example := C33_Trebble_Bishnoi (a := 2) (Tc := 300) (T := 250) (by norm_num) (by norm_num) (1 / 2)

set_option maxHeartbeats 2000000 in
/-- **C33.** `Melhem_a_alpha`. -/
theorem C33_Melhem (hTc : 0 < Tc) (hT : 0 < T) (c1 c2 : ℝ) :
    Exact (fun t => a * Melhem_alpha Tc c1 c2 t) (fun t => Melhem_full a Tc c1 c2 t) T := by
  have e1 : ∀ t s, Real.exp (-c1 * (t / Tc - 1) + c2 * (s - 1) ^ 2) = Real.exp (c1 * (-t / Tc + 1) + c2 * (-s + 1) ^ 2) :=
    fun t s => by congr 1; ring
  refine Exact.of_pos (fun T hT => ?_) (fun T hT => ?_) (fun T hT => ?_) hT
  · simp only [Melhem_full, Melhem_alpha, e1]
  all_goals
    have hs := hasDerivAt_sqrtTr hTc hT
    obtain ⟨h1, h2⟩ := sqrtTr hTc hT
    derive [Melhem_full, Melhem_alpha, e1]
    generalize Real.exp _ = E at *
    try generalize √(T / Tc) = s at *
    try subst h2
    field_simp
    try ring

example := C33_Melhem (a := 2) (Tc := 300) (T := 250) (by norm_num) (by norm_num) (1 / 2) 3

set_option maxHeartbeats 2000000 in
/-- **C33.** `Androulakis_a_alpha`. -/
theorem C33_Androulakis (hTc : 0 < Tc) (hT : 0 < T) (c1 c2 c3 : ℝ) :
    Exact (fun t => a * Androulakis_alpha Tc c1 c2 c3 t) (fun t => Androulakis_full a Tc c1 c2 c3 t) T := by
  refine Exact.of_pos (fun T hT => ?_) (fun T hT => ?_) (fun T hT => ?_) hT
  · simp only [Androulakis_full, Androulakis_alpha]
  all_goals
    have hs := hasDerivAt_sqrtTr hTc hT
    have hp := hasDerivAt_rpowTr hTc hT ((2 : ℝ) / 3)
    obtain ⟨h1, h2⟩ := sqrtTr hTc hT
    derive [Androulakis_full, Androulakis_alpha]
    generalize (T / Tc) ^ ((2 : ℝ) / 3) = X at *
    try generalize √(T / Tc) = s at *
    try subst h2
    field_simp
    try ring

example := C33_Androulakis (a := 2) (Tc := 300) (T := 250) (by norm_num) (by norm_num) (1 / 2) 3 2

set_option maxHeartbeats 2000000 in
/-- **C33.** `Gasem_a_alpha`. -/
theorem C33_Gasem (hTc : 0 < Tc) (hT : 0 < T) (c1 c2 c3 : ℝ) :
    Exact (fun t => a * Gasem_alpha Tc c1 c2 c3 t) (fun t => Gasem_full a Tc c1 c2 c3 t) T := by
  have e1 : ∀ x y, Real.exp (-(x - 1) * y) = Real.exp ((-x + 1) * y) := fun x y => by congr 1; ring
  refine Exact.of_pos (fun T hT => ?_) (fun T hT => ?_) (fun T hT => ?_) hT
  · simp only [Gasem_full, Gasem_alpha, e1]
  all_goals
    have hs := hasDerivAt_sqrtTr hTc hT
    have hp := hasDerivAt_rpowTr hTc hT c3
    obtain ⟨h1, h2⟩ := sqrtTr hTc hT
    derive [Gasem_full, Gasem_alpha, e1]
    generalize Real.exp _ = E at *
    generalize (T / Tc) ^ c3 = X at *
    try generalize √(T / Tc) = s at *
    try subst h2
    field_simp
    try ring

example := C33_Gasem (a := 2) (Tc := 300) (T := 250) (by norm_num) (by norm_num) (1 / 2) 3 2

set_option maxHeartbeats 2000000 in
/-- **C33.** `Coquelet_a_alpha`. -/
theorem C33_Coquelet (hTc : 0 < Tc) (hT : 0 < T) (c1 c2 c3 : ℝ) :
    Exact (fun t => a * Coquelet_alpha Tc c1 c2 c3 t) (fun t => Coquelet_full a Tc c1 c2 c3 t) T := by
  have e1 : ∀ t s, Real.exp (-c1 * (t / Tc - 1) * (c2 * (s - 1) ^ 2 - c3 * (s - 1) ^ 3 + 1) ^ 2)
      = Real.exp (c1 * (-t / Tc + 1) * (c2 * (-s + 1) ^ 2 + c3 * (-s + 1) ^ 3 + 1) ^ 2) :=
    fun t s => by congr 1; ring
  refine Exact.of_pos (fun T hT => ?_) (fun T hT => ?_) (fun T hT => ?_) hT
  · simp only [Coquelet_full, Coquelet_alpha, e1]
  all_goals
    have hs := hasDerivAt_sqrtTr hTc hT
    obtain ⟨h1, h2⟩ := sqrtTr hTc hT
    derive [Coquelet_full, Coquelet_alpha, e1]
    generalize Real.exp _ = E at *
    try generalize √(T / Tc) = s at *
    try subst h2
    field_simp
    try ring

example := C33_Coquelet (a := 2) (Tc := 300) (T := 250) (by norm_num) (by norm_num) (1 / 2) 3 2

set_option maxHeartbeats 2000000 in
/-- **C33.** `Saffari_a_alpha`. -/
theorem C33_Saffari (hTc : 0 < Tc) (hT : 0 < T) (c1 c2 c3 : ℝ) :
    Exact (fun t => a * Saffari_alpha Tc c1 c2 c3 t) (fun t => Saffari_full a Tc c1 c2 c3 t) T := by
  have e1 : ∀ x s, Real.exp (x - c3 * (s - 1)) = Real.exp (x + c3 * (-s + 1)) := fun x s => by congr 1; ring
  refine Exact.of_pos (fun T hT => ?_) (fun T hT => ?_) (fun T hT => ?_) hT
  · simp only [Saffari_full, Saffari_alpha, e1]
  all_goals
    have hs := hasDerivAt_sqrtTr hTc hT
    obtain ⟨h1, h2⟩ := sqrtTr hTc hT
    derive [Saffari_full, Saffari_alpha, e1]
    generalize Real.exp _ = E at *
    try generalize √(T / Tc) = s at *
    try subst h2
    field_simp
    try ring

example := C33_Saffari (a := 2) (Tc := 300) (T := 250) (by norm_num) (by norm_num) (1 / 2) 3 2

set_option maxHeartbeats 2000000 in
/-- **C33.** `Haghtalab_a_alpha`, for a positive base `c3`. -/
theorem C33_Haghtalab (hTc : 0 < Tc) (hT : 0 < T) (c1 c2 : ℝ) {c3 : ℝ} (hc : 0 < c3) :
    Exact (fun t => a * Haghtalab_alpha Tc c1 c2 c3 t) (fun t => Haghtalab_full a Tc c1 c2 c3 t) T := by
  have e1 : ∀ x t, Real.exp ((x - 1) * (t * c2 / Tc - c1)) = Real.exp ((-x + 1) * (-t * c2 / Tc + c1)) :=
    fun x t => by congr 1; ring
  refine Exact.of_pos (fun T hT => ?_) (fun T hT => ?_) (fun T hT => ?_) hT
  · simp only [Haghtalab_full, Haghtalab_alpha]
  all_goals
    have hp : HasDerivAt (fun t => c3 ^ Real.log (t / Tc)) (c3 ^ Real.log (T / Tc) * Real.log c3 / T) T := by
      have h := (((hasDerivAt_id' T).div_const Tc).log (div_pos hT hTc).ne').const_rpow hc
      refine h.congr_deriv ?_
      field_simp
    derive [Haghtalab_full, Haghtalab_alpha, e1]
    generalize Real.exp ((-c3 ^ Real.log (T / Tc) + 1) * (-T * c2 / Tc + c1)) = E at *
    generalize c3 ^ Real.log (T / Tc) = X at *
    field_simp
    ring

example := C33_Haghtalab (a := 2) (Tc := 300) (T := 250) (by norm_num) (by norm_num) (1 / 2) 3
  (c3 := 2) (by norm_num)

set_option maxHeartbeats 2000000 in
/-- **C33.** `Chen_Yang_a_alpha`, where the argument of its logarithm is positive. -/
theorem C33_Chen_Yang (hTc : 0 < Tc) (hT : 0 < T) (omega c1 c2 c3 c4 c5 c6 c7 : ℝ)
    (hl : 0 < (-√(T / Tc) + 1) * (c5 + c6 * omega + c7 * omega ^ 2) + 1) :
    Exact (fun t => a * Chen_Yang_alpha Tc omega c1 c2 c3 c4 c5 c6 c7 t)
      (fun t => Chen_Yang_full a Tc omega c1 c2 c3 c4 c5 c6 c7 t) T := by
  simp only [Chen_Yang_full, Chen_Yang_alpha]
  generalize c1 + c2 * omega + c3 * omega ^ 2 = m
  generalize c5 + c6 * omega + c7 * omega ^ 2 = k at *
  have e0 : ∀ s : ℝ, -(s - 1) * k + 1 = (-s + 1) * k + 1 := fun s => by ring
  have e2 : ∀ s : ℝ, (s - 1) * k - 1 = -((-s + 1) * k + 1) := fun s => by ring
  have e1 : ∀ x t, Real.exp (x - (t / Tc - 1) * m) = Real.exp (x + (-t / Tc + 1) * m) :=
    fun x t => by congr 1; ring
  simp only [e0, e1, e2]
  refine Exact.of_near rfl ?_ ?_
  · have hcont : ContinuousAt (fun t => (-√(t / Tc) + 1) * k + 1) T := by fun_prop
    filter_upwards [eventually_gt_nhds hT, hcont.eventually (eventually_gt_nhds hl)] with T hT hl
    have hs := hasDerivAt_sqrtTr hTc hT
    obtain ⟨h1, h2⟩ := sqrtTr hTc hT
    derive [mul_one]
    generalize Real.exp _ = E at *
    generalize √(T / Tc) = s at *
    generalize Real.log _ = L at *
    subst h2
    generalize hq : (-s + 1) * k + 1 = q at *
    field_simp
    ring
  · have hs := hasDerivAt_sqrtTr hTc hT
    obtain ⟨h1, h2⟩ := sqrtTr hTc hT
    derive [mul_one]
    generalize Real.exp _ = E at *
    generalize √(T / Tc) = s at *
    generalize Real.log _ = L at *
    subst h2
    generalize hq : (-s + 1) * k + 1 = q at *
    field_simp
    ring

example := C33_Chen_Yang (a := 2) (Tc := 300) (T := 300) (by norm_num) (by norm_num) 1 2 3 4 5 6 7 8 (by norm_num)

set_option maxHeartbeats 2000000 in
/-- **C33.** `Twu91_a_alpha`. -/
theorem C33_Twu91 (hTc : 0 < Tc) (hT : 0 < T) (c0 c1 c2 : ℝ) :
    Exact (fun t => a * Twu91_alpha Tc c0 c1 c2 t) (fun t => Twu91_full a Tc c0 c1 c2 t) T := by
  have e1 : ∀ x, Real.exp (-c0 * (x - 1)) = Real.exp (c0 * (1 - x)) := fun x => by congr 1; ring
  refine Exact.of_pos (fun T hT => ?_) (fun T hT => ?_) (fun T hT => ?_) hT
  · simp only [Twu91_full, Twu91_alpha, e1]; ring
  all_goals
    have hp := hasDerivAt_rpowTr hTc hT (c2 * (c1 - 1))
    have hq := hasDerivAt_rpowTr hTc hT (c1 * c2)
    derive [Twu91_full, Twu91_alpha, e1]
    generalize Real.exp _ = E at *
    generalize (T / Tc) ^ (c2 * (c1 - 1)) = X at *
    generalize (T / Tc) ^ (c1 * c2) = Y at *
    field_simp
    ring

example := C33_Twu91 (a := 2) (Tc := 300) (T := 250) (by norm_num) (by norm_num) (1 / 2) 3 2

set_option maxHeartbeats 2000000 in
/-- **C33.** `Almeida_a_alpha`, away from the critical temperature. -/
theorem C33_Almeida (hTc : 0 < Tc) (hT : 0 < T) (hne : T ≠ Tc) (c1 c2 c3 : ℝ) :
    Exact (fun t => a * Almeida_alpha Tc c1 c2 c3 t) (fun t => Almeida_full a Tc c1 c2 c3 t) T := by
  rcases lt_or_gt_of_ne hne with hlt | hgt
  · have key : ∀ t, 0 < t → t < Tc →
        HasDerivAt (fun t => (1 - t / Tc) ^ (c2 - 1)) (-((c2 - 1) * (1 - t / Tc) ^ (c2 - 1) / (1 - t / Tc) / Tc)) t := by
      intro t ht htc
      have hp : 0 < 1 - t / Tc := by rw [sub_pos, div_lt_one hTc]; exact htc
      have h := (((hasDerivAt_id' t).div_const Tc).const_sub 1).rpow_const (p := c2 - 1) (.inl hp.ne')
      refine h.congr_deriv ?_
      rw [Real.rpow_sub_one hp.ne']
      field_simp
    have hval : ∀ t, 0 < t → t < Tc → Almeida_alpha Tc c1 c2 c3 t
        = Real.exp (c1 * (-t / Tc + 1) * (1 - t / Tc) ^ (c2 - 1) + c3 * (-1 + Tc / t)) := by
      intro t ht htc
      have hp : 0 < 1 - t / Tc := by rw [sub_pos, div_lt_one hTc]; exact htc
      unfold Almeida_alpha
      rw [abs_of_neg (show t / Tc - 1 < 0 by linarith), show -(t / Tc - 1) = 1 - t / Tc by ring]
    have hfull : ∀ t, 0 < t → t < Tc → Almeida_full a Tc c1 c2 c3 t
        = ⟨a * Real.exp (c1 * (-t / Tc + 1) * (1 - t / Tc) ^ (c2 - 1) + c3 * (-1 + Tc / t)),
          -(a * ((c2 * (c1 * (1 - t / Tc) ^ (c2 - 1) / Tc) + Tc * c3 / t ^ 2)
            * Real.exp (c1 * (-t / Tc + 1) * (1 - t / Tc) ^ (c2 - 1) + c3 * (-1 + Tc / t)))),
          a * (Real.exp (c1 * (-t / Tc + 1) * (1 - t / Tc) ^ (c2 - 1) + c3 * (-1 + Tc / t))
            * ((c2 * (c1 * (1 - t / Tc) ^ (c2 - 1) / Tc) + Tc * c3 / t ^ 2) ^ 2
              + c2 * (c2 - 1) * (c1 * (1 - t / Tc) ^ (c2 - 1) / (Tc ^ 2 * (1 - t / Tc))) + 2 * (Tc * c3) / t ^ 3))⟩ := by
      intro t ht htc
      have hp : 0 < 1 - t / Tc := by rw [sub_pos, div_lt_one hTc]; exact htc
      unfold Almeida_full
      dsimp only
      rw [if_neg (by rw [not_lt, div_le_one hTc]; exact htc.le)]
      rw [show (1 - t * (1 / Tc)) = 1 - t / Tc by ring]
      rw [show -(c3 * (1 - Tc / t)) - (t * (1 / Tc) - 1) * (c1 * (1 - t / Tc) ^ (c2 - 1))
        = c1 * (-t / Tc + 1) * (1 - t / Tc) ^ (c2 - 1) + c3 * (-1 + Tc / t) by ring]
      generalize Real.exp _ = E at *
      generalize (1 - t / Tc) ^ (c2 - 1) = X at *
      refine congrArg₂ (V3.mk _) ?_ ?_
      · ring
      · have hn : t * (1 / Tc) - 1 = -(1 - t / Tc) := by ring
        rw [hn]
        generalize 1 - t / Tc = w at *
        field_simp
        ring
    have hev : ∀ᶠ t in nhds T, 0 < t ∧ t < Tc := (eventually_gt_nhds hT).and (eventually_lt_nhds hlt)
    refine Exact.of_near ?_ (hev.mono fun t ⟨ht, htc⟩ => ?_) ?_
    · rw [hval T hT hlt, hfull T hT hlt]
    · rw [hfull t ht htc]
      refine HasDerivAt.congr_of_eventuallyEq (f := fun t => a * Real.exp (c1 * (-t / Tc + 1)
        * (1 - t / Tc) ^ (c2 - 1) + c3 * (-1 + Tc / t))) ?_ ?_
      · have hk := key t ht htc
        have hp : 0 < 1 - t / Tc := by rw [sub_pos, div_lt_one hTc]; exact htc
        derive [mul_one]
        generalize Real.exp _ = E at *
        generalize (1 - t / Tc) ^ (c2 - 1) = X at *
        have e : -t / Tc + 1 = 1 - t / Tc := by ring
        rw [e]
        generalize 1 - t / Tc = w at *
        field_simp
        ring
      · filter_upwards [eventually_gt_nhds ht, eventually_lt_nhds htc] with u hu huc
        rw [hval u hu huc]
    · rw [hfull T hT hlt]
      refine HasDerivAt.congr_of_eventuallyEq (f := fun t =>
        -(a * ((c2 * (c1 * (1 - t / Tc) ^ (c2 - 1) / Tc) + Tc * c3 / t ^ 2)
            * Real.exp (c1 * (-t / Tc + 1) * (1 - t / Tc) ^ (c2 - 1) + c3 * (-1 + Tc / t))))) ?_ ?_
      · have hk := key T hT hlt
        have hp : 0 < 1 - T / Tc := by rw [sub_pos, div_lt_one hTc]; exact hlt
        derive [mul_one]
        generalize Real.exp _ = E at *
        generalize (1 - T / Tc) ^ (c2 - 1) = X at *
        have e : -T / Tc + 1 = 1 - T / Tc := by ring
        rw [e]
        generalize 1 - T / Tc = w at *
        field_simp
        ring
      · filter_upwards [hev] with u hu
        rw [hfull u hu.1 hu.2]
  · have key : ∀ t, 0 < t → Tc < t →
        HasDerivAt (fun t => (t / Tc - 1) ^ (c2 - 1)) (((c2 - 1) * (t / Tc - 1) ^ (c2 - 1) / (t / Tc - 1) / Tc)) t := by
      intro t ht htc
      have hp : 0 < t / Tc - 1 := by rw [sub_pos, one_lt_div hTc]; exact htc
      have h := (((hasDerivAt_id' t).div_const Tc).sub_const 1).rpow_const (p := c2 - 1) (.inl hp.ne')
      refine h.congr_deriv ?_
      rw [Real.rpow_sub_one hp.ne']
      field_simp
    have hval : ∀ t, 0 < t → Tc < t → Almeida_alpha Tc c1 c2 c3 t
        = Real.exp (c1 * (-t / Tc + 1) * (t / Tc - 1) ^ (c2 - 1) + c3 * (-1 + Tc / t)) := by
      intro t ht htc
      have hp : 0 < t / Tc - 1 := by rw [sub_pos, one_lt_div hTc]; exact htc
      unfold Almeida_alpha
      rw [abs_of_pos hp]
    have hfull : ∀ t, 0 < t → Tc < t → Almeida_full a Tc c1 c2 c3 t
        = ⟨a * Real.exp (c1 * (-t / Tc + 1) * (t / Tc - 1) ^ (c2 - 1) + c3 * (-1 + Tc / t)),
          -(a * ((c2 * (c1 * (t / Tc - 1) ^ (c2 - 1) / Tc) + Tc * c3 / t ^ 2)
            * Real.exp (c1 * (-t / Tc + 1) * (t / Tc - 1) ^ (c2 - 1) + c3 * (-1 + Tc / t)))),
          a * (Real.exp (c1 * (-t / Tc + 1) * (t / Tc - 1) ^ (c2 - 1) + c3 * (-1 + Tc / t))
            * ((c2 * (c1 * (t / Tc - 1) ^ (c2 - 1) / Tc) + Tc * c3 / t ^ 2) ^ 2
              - c2 * (c2 - 1) * (c1 * (t / Tc - 1) ^ (c2 - 1) / (Tc ^ 2 * (t / Tc - 1))) + 2 * (Tc * c3) / t ^ 3))⟩ := by
      intro t ht htc
      have hp : 0 < t / Tc - 1 := by rw [sub_pos, one_lt_div hTc]; exact htc
      unfold Almeida_full
      dsimp only
      rw [if_pos (by rw [one_lt_div hTc]; exact htc)]
      rw [show t * (1 / Tc) - 1 = t / Tc - 1 by ring]
      rw [show -(c3 * (1 - Tc / t)) - (t / Tc - 1) * (c1 * (t / Tc - 1) ^ (c2 - 1))
        = c1 * (-t / Tc + 1) * (t / Tc - 1) ^ (c2 - 1) + c3 * (-1 + Tc / t) by ring]
      generalize Real.exp _ = E at *
      generalize (t / Tc - 1) ^ (c2 - 1) = X at *
      refine congrArg₂ (V3.mk _) ?_ ?_
      · ring
      · generalize t / Tc - 1 = w at *
        field_simp
        ring
    have hev : ∀ᶠ t in nhds T, 0 < t ∧ Tc < t := (eventually_gt_nhds hT).and (eventually_gt_nhds hgt)
    refine Exact.of_near ?_ (hev.mono fun t ⟨ht, htc⟩ => ?_) ?_
    · rw [hval T hT hgt, hfull T hT hgt]
    · rw [hfull t ht htc]
      refine HasDerivAt.congr_of_eventuallyEq (f := fun t => a * Real.exp (c1 * (-t / Tc + 1)
        * (t / Tc - 1) ^ (c2 - 1) + c3 * (-1 + Tc / t))) ?_ ?_
      · have hk := key t ht htc
        have hp : 0 < t / Tc - 1 := by rw [sub_pos, one_lt_div hTc]; exact htc
        derive [mul_one]
        generalize Real.exp _ = E at *
        generalize (t / Tc - 1) ^ (c2 - 1) = X at *
        have e : -t / Tc + 1 = -(t / Tc - 1) := by ring
        rw [e]
        generalize t / Tc - 1 = w at *
        field_simp
        ring
      · filter_upwards [eventually_gt_nhds ht, eventually_gt_nhds htc] with u hu huc
        rw [hval u hu huc]
    · rw [hfull T hT hgt]
      refine HasDerivAt.congr_of_eventuallyEq (f := fun t =>
        -(a * ((c2 * (c1 * (t / Tc - 1) ^ (c2 - 1) / Tc) + Tc * c3 / t ^ 2)
            * Real.exp (c1 * (-t / Tc + 1) * (t / Tc - 1) ^ (c2 - 1) + c3 * (-1 + Tc / t))))) ?_ ?_
      · have hk := key T hT hgt
        have hp : 0 < T / Tc - 1 := by rw [sub_pos, one_lt_div hTc]; exact hgt
        derive [mul_one]
        generalize Real.exp _ = E at *
        generalize (T / Tc - 1) ^ (c2 - 1) = X at *
        have e : -T / Tc + 1 = -(T / Tc - 1) := by ring
        rw [e]
        generalize T / Tc - 1 = w at *
        field_simp
        ring
      · filter_upwards [hev] with u hu
        rw [hfull u hu.1 hu.2]

example := C33_Almeida (a := 2) (Tc := 300) (T := 250) (by norm_num) (by norm_num) (by norm_num) (1 / 2) 3 2

/-- **C33.** `Almeida_a_alpha` at the critical temperature: the derivative method raises there for every set of
coefficients, although `a_alpha_pure` returns `a`. -/
theorem C33_Almeida_critical_fails (hTc : 0 < Tc) (c1 c2 c3 : ℝ) :
    Almeida_raises a Tc c1 c2 c3 Tc = none ∧ a * Almeida_alpha Tc c1 c2 c3 Tc = a := by
  constructor
  · simp [Almeida_raises, hTc.ne']
  · simp [Almeida_alpha, hTc.ne', neg_div]

example := C33_Almeida_critical_fails (a := 2) (Tc := 300) (by norm_num) 1 2 3

/-- The supercritical branch is the exact derivative of `a (1 + c1 (1 - √Tr))²`. -/
theorem above_exact (hTc : 0 < Tc) (hT : 0 < T) (c1 : ℝ) :
    Exact (fun t => a * ((1 + c1 * (1 - √(t / Tc))) * (1 + c1 * (1 - √(t / Tc))))) (fun t => above a Tc c1 t) T := by
  have e : ∀ t, t * (1 / Tc) = t / Tc := fun t => by ring
  refine Exact.of_pos (fun T hT => ?_) (fun T hT => ?_) (fun T hT => ?_) hT
  · simp only [above, e]; ring
  all_goals
    have hs := hasDerivAt_sqrtTr hTc hT
    obtain ⟨h1, h2⟩ := sqrtTr hTc hT
    derive [above, e]
    generalize √(T / Tc) = s at *
    subst h2
    field_simp
    ring

/-- Exactness only depends on the functions near the point. -/
theorem exact_congr {f g : ℝ → ℝ} {F G : ℝ → V3} (h : Exact f F T) (hf : ∀ᶠ t in nhds T, g t = f t)
    (hF : G T = F T) : Exact g G T := by
  refine ⟨by rw [hF, hf.self_of_nhds]; exact h.value, ?_, ?_⟩
  · rw [hF]; exact h.first.congr_of_eventuallyEq hf
  · rw [hF]
    refine h.second.congr_of_eventuallyEq ?_
    have := hf.eventually_nhds
    filter_upwards [this] with t ht
    exact Filter.EventuallyEq.deriv_eq ht

/-- **C33.** `Mathias_Copeman_a_alpha`, away from the critical temperature. -/
theorem C33_Mathias_Copeman (hTc : 0 < Tc) (hT : 0 < T) (hne : T ≠ Tc) (c1 c2 c3 : ℝ) :
    Exact (fun t => a * Mathias_Copeman_alpha Tc c1 c2 c3 t) (fun t => Mathias_Copeman_full a Tc c1 c2 c3 t) T := by
  rcases lt_or_gt_of_ne hne with hlt | hgt
  · refine exact_congr (C33_Mathias_Copeman_untruncated (a := a) hTc hT c1 c2 c3) ?_ ?_
    · filter_upwards [eventually_lt_nhds hlt] with t ht
      simp only [Mathias_Copeman_alpha, if_pos ht, Mathias_Copeman_untruncated_alpha]
    · simp only [Mathias_Copeman_full]
      rw [if_neg (by rw [not_lt, div_le_one hTc]; exact hlt.le)]
  · refine exact_congr (above_exact (a := a) hTc hT c1) ?_ ?_
    · filter_upwards [eventually_gt_nhds hgt] with t ht
      simp only [Mathias_Copeman_alpha, if_neg (not_lt.2 ht.le)]
    · simp only [Mathias_Copeman_full]
      rw [if_pos (by rw [one_lt_div hTc]; exact hgt)]

example := C33_Mathias_Copeman (a := 2) (Tc := 300) (T := 250) (by norm_num) (by norm_num) (by norm_num) 1 2 3

/-- **C33.** `Mathias_Copeman_a_alpha` at the critical temperature: the value and the first derivative are exact. -/
theorem C33_Mathias_Copeman_critical (hTc : 0 < Tc) (c1 c2 c3 : ℝ) :
    (Mathias_Copeman_full a Tc c1 c2 c3 Tc).v = a * Mathias_Copeman_alpha Tc c1 c2 c3 Tc
      ∧ HasDerivAt (fun t => a * Mathias_Copeman_alpha Tc c1 c2 c3 t) (Mathias_Copeman_full a Tc c1 c2 c3 Tc).d Tc := by
  have hv : Mathias_Copeman_full a Tc c1 c2 c3 Tc = Mathias_Copeman_untruncated_full a Tc c1 c2 c3 Tc := by
    simp only [Mathias_Copeman_full]
    rw [if_neg (by rw [div_self hTc.ne']; exact lt_irrefl _)]
  have h1 := (C33_Mathias_Copeman_untruncated (a := a) hTc hTc c1 c2 c3).first
  have h2 := (above_exact (a := a) hTc hTc c1).first
  have hs : √(Tc / Tc) = 1 := by rw [div_self hTc.ne']; simp
  have hd : (above a Tc c1 Tc).d = (Mathias_Copeman_untruncated_full a Tc c1 c2 c3 Tc).d := by
    simp only [above, Mathias_Copeman_untruncated_full, hs, mul_one_div]
    ring
  constructor
  · rw [hv]
    simp [Mathias_Copeman_untruncated_full, Mathias_Copeman_alpha, hs]
  · rw [hv, ← hasDerivWithinAt_univ, ← Set.Iic_union_Ici (a := Tc)]
    refine HasDerivWithinAt.union ?_ ?_
    · refine h1.hasDerivWithinAt.congr (fun t ht => ?_) ?_
      · rcases lt_or_eq_of_le (Set.mem_Iic.1 ht) with h | h
        · simp only [Mathias_Copeman_alpha, if_pos h, Mathias_Copeman_untruncated_alpha]
        · subst h
          simp [Mathias_Copeman_alpha, Mathias_Copeman_untruncated_alpha, hs]
      · simp [Mathias_Copeman_alpha, Mathias_Copeman_untruncated_alpha, hs]
    · rw [hd] at h2
      refine h2.hasDerivWithinAt.congr (fun t ht => ?_) ?_
      · simp only [Mathias_Copeman_alpha, if_neg (not_lt.2 (Set.mem_Ici.1 ht))]
      · simp [Mathias_Copeman_alpha, hs]

example := C33_Mathias_Copeman_critical (a := 2) (Tc := 300) (by norm_num) 1 2 3

/-- **C33.** `Mathias_Copeman_a_alpha` at the critical temperature: with `c2 ≠ 0` there is no second derivative;
the method returns the one from below. -/
theorem C33_Mathias_Copeman_critical_fails (hTc : 0 < Tc) (ha : a ≠ 0) (c1 c3 : ℝ) {c2 : ℝ} (hc : c2 ≠ 0) (D : ℝ) :
    ¬ HasDerivAt (deriv fun t => a * Mathias_Copeman_alpha Tc c1 c2 c3 t) D Tc := by
  intro h
  set F := deriv fun t => a * Mathias_Copeman_alpha Tc c1 c2 c3 t with hF
  have hs : √(Tc / Tc) = 1 := by rw [div_self hTc.ne']; simp
  have h1 := (C33_Mathias_Copeman_untruncated (a := a) hTc hTc c1 c2 c3)
  have h2 := (above_exact (a := a) hTc hTc c1)
  obtain ⟨_, h0⟩ := C33_Mathias_Copeman_critical (a := a) hTc c1 c2 c3
  have hFc : F Tc = (Mathias_Copeman_full a Tc c1 c2 c3 Tc).d := h0.deriv
  have hd : (above a Tc c1 Tc).d = (Mathias_Copeman_untruncated_full a Tc c1 c2 c3 Tc).d := by
    simp only [above, Mathias_Copeman_untruncated_full, hs, mul_one_div]
    ring
  have hv : Mathias_Copeman_full a Tc c1 c2 c3 Tc = Mathias_Copeman_untruncated_full a Tc c1 c2 c3 Tc := by
    simp only [Mathias_Copeman_full]
    rw [if_neg (by rw [div_self hTc.ne']; exact lt_irrefl _)]
  have e1 : HasDerivWithinAt F (Mathias_Copeman_untruncated_full a Tc c1 c2 c3 Tc).d2 (Set.Iio Tc) Tc := by
    refine h1.second.hasDerivWithinAt.congr_of_eventuallyEq ?_ ?_
    · filter_upwards [self_mem_nhdsWithin] with t ht
      refine Filter.EventuallyEq.deriv_eq ?_
      filter_upwards [eventually_lt_nhds (Set.mem_Iio.1 ht)] with u hu
      simp only [Mathias_Copeman_alpha, if_pos hu, Mathias_Copeman_untruncated_alpha]
    · rw [hFc, hv, h1.first.deriv]
  have e2 : HasDerivWithinAt F (above a Tc c1 Tc).d2 (Set.Ioi Tc) Tc := by
    refine h2.second.hasDerivWithinAt.congr_of_eventuallyEq ?_ ?_
    · filter_upwards [self_mem_nhdsWithin] with t ht
      refine Filter.EventuallyEq.deriv_eq ?_
      filter_upwards [eventually_gt_nhds (Set.mem_Ioi.1 ht)] with u hu
      simp only [Mathias_Copeman_alpha, if_neg (not_lt.2 hu.le)]
    · rw [hFc, hv, h2.first.deriv, hd]
  have u1 := (uniqueDiffWithinAt_Iio Tc).eq_deriv _ e1 h.hasDerivWithinAt
  have u2 := (uniqueDiffWithinAt_Ioi Tc).eq_deriv _ e2 h.hasDerivWithinAt
  rw [← u2] at u1
  simp only [above, Mathias_Copeman_untruncated_full, hs, mul_one_div] at u1
  field_simp at u1
  ring_nf at u1
  exact hc (by linarith)

example := C33_Mathias_Copeman_critical_fails (a := 2) (Tc := 300) (by norm_num) (by norm_num) 1 3
  (c2 := 2) (by norm_num)

/-- **C33.** `Mathias_Copeman_poly_a_alpha`, away from the critical temperature, for every polynomial. -/
theorem C33_Mathias_Copeman_poly (hTc : 0 < Tc) (hT : 0 < T) (hne : T ≠ Tc) (p : Polynomial ℝ) :
    Exact (fun t => Mathias_Copeman_poly_pure a Tc p t) (fun t => Mathias_Copeman_poly_full a Tc p t) T := by
  rcases lt_or_gt_of_ne hne with hlt | hgt
  · have key : ∀ (q : Polynomial ℝ) (t : ℝ), 0 < t →
        HasDerivAt (fun t => q.eval (1 - √(t / Tc))) (-(q.derivative.eval (1 - √(t / Tc)) * (√(t / Tc) / (2 * t)))) t := by
      intro q t ht
      have := (q.hasDerivAt (1 - √(t / Tc))).comp t ((hasDerivAt_sqrtTr hTc ht).const_sub 1)
      exact this.congr_deriv (by ring)
    have hpos : Exact (fun t => p.eval (1 - √(t / Tc)) * p.eval (1 - √(t / Tc)) * a)
        (fun t => ⟨p.eval (1 - √(t / Tc)) * p.eval (1 - √(t / Tc)) * a,
          -a * (√(t / Tc) * p.eval (1 - √(t / Tc)) * p.derivative.eval (1 - √(t / Tc)) / t),
          a * ((p.eval (1 - √(t / Tc)) * p.derivative.derivative.eval (1 - √(t / Tc)) / Tc
            + p.derivative.eval (1 - √(t / Tc)) * p.derivative.eval (1 - √(t / Tc)) / Tc
            + √(t / Tc) * p.eval (1 - √(t / Tc)) * p.derivative.eval (1 - √(t / Tc)) / t) / (2 * t))⟩) T := by
      refine Exact.of_pos (fun T hT => ?_) (fun T hT => ?_) (fun T hT => ?_) hT
      · rfl
      all_goals
        have hs := hasDerivAt_sqrtTr hTc hT
        have k0 := key p T hT
        have k1 := key p.derivative T hT
        obtain ⟨h1, h2⟩ := sqrtTr hTc hT
        derive [mul_one]
        generalize Polynomial.eval _ p = x0 at *
        generalize Polynomial.eval _ (Polynomial.derivative p) = x1 at *
        try generalize Polynomial.eval _ (Polynomial.derivative (Polynomial.derivative p)) = x2 at *
        generalize √(T / Tc) = s at *
        subst h2
        field_simp
        ring
    refine exact_congr hpos ?_ ?_
    · filter_upwards [eventually_lt_nhds hlt] with t ht
      simp only [Mathias_Copeman_poly_pure, if_pos ht]
    · simp only [Mathias_Copeman_poly_full, if_pos hlt]
  · refine exact_congr (above_exact (a := a) hTc hT (p.coeff 1)) ?_ ?_
    · filter_upwards [eventually_gt_nhds hgt] with t ht
      simp only [Mathias_Copeman_poly_pure, if_neg (not_lt.2 ht.le)]
      ring
    · simp only [Mathias_Copeman_poly_full, if_neg (not_lt.2 hgt.le)]

example := C33_Mathias_Copeman_poly (a := 2) (Tc := 300) (T := 250) (by norm_num) (by norm_num) (by norm_num)
  (Polynomial.X ^ 2 + 1)

/-- **C33.** The polynomial form is continuous at the critical temperature only if the last coefficient, documented
to be 1, has square 1. -/
theorem C33_Mathias_Copeman_poly_jump (hTc : 0 < Tc) (ha : a ≠ 0) (p : Polynomial ℝ)
    (h : ContinuousAt (fun t => Mathias_Copeman_poly_pure a Tc p t) Tc) : p.coeff 0 ^ 2 = 1 := by
  have hs : √(Tc / Tc) = 1 := by rw [div_self hTc.ne']; simp
  have hR : Mathias_Copeman_poly_pure a Tc p Tc = a := by simp [Mathias_Copeman_poly_pure, hs]
  have hL : Filter.Tendsto (fun t => p.eval (1 - √(t / Tc)) * p.eval (1 - √(t / Tc)) * a) (nhdsWithin Tc (Set.Iio Tc))
      (nhds (p.coeff 0 * p.coeff 0 * a)) := by
    have hc : ContinuousAt (fun t => p.eval (1 - √(t / Tc)) * p.eval (1 - √(t / Tc)) * a) Tc := by
      have : ContinuousAt (fun t => p.eval (1 - √(t / Tc))) Tc :=
        ContinuousAt.comp (g := fun y => p.eval y) (p.differentiable _).continuousAt (by fun_prop)
      exact (this.mul this).mul continuousAt_const
    have := hc.tendsto.mono_left (nhdsWithin_le_nhds (s := Set.Iio Tc))
    simpa [hs, Polynomial.coeff_zero_eq_eval_zero] using this
  have hL' : Filter.Tendsto (fun t => p.eval (1 - √(t / Tc)) * p.eval (1 - √(t / Tc)) * a) (nhdsWithin Tc (Set.Iio Tc))
      (nhds a) := by
    have := h.tendsto.mono_left (nhdsWithin_le_nhds (s := Set.Iio Tc))
    rw [hR] at this
    refine this.congr' ?_
    filter_upwards [self_mem_nhdsWithin] with t ht
    simp only [Mathias_Copeman_poly_pure, if_pos (Set.mem_Iio.1 ht)]
  have := tendsto_nhds_unique hL hL'
  have h2 : (p.coeff 0 ^ 2 - 1) * a = 0 := by linarith
  rcases mul_eq_zero.1 h2 with h3 | h3
  · linarith
  · exact absurd h3 ha

/-- **C33.** `Poly_a_alpha`. -/
theorem C33_Poly (p : Polynomial ℝ) : Exact (fun t => Poly_pure a p t) (fun t => Poly_full a p t) T := by
  refine Exact.of_near rfl (Filter.Eventually.of_forall fun t => ?_) ?_
  · exact (p.hasDerivAt t).const_mul a
  · exact (p.derivative.hasDerivAt T).const_mul a

end

end Verif.AlphaFns
