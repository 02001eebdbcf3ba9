import Mathlib.Tactic
import Mathlib.Analysis.SpecialFunctions.Log.Deriv
import Mathlib.Algebra.BigOperators.Field
import Mathlib.Algebra.BigOperators.Fin
import Mathlib.Algebra.Order.BigOperators.Ring.Finset

/-!
# Molar volume objects (`thermo/volume.py`)

* C114: extension of volume fits to low temperature (440-465), linear densities of inorganic liquids (491-506), compressed liquids (690-694), Tait data (745-778), supercritical liquids (892-991),
  mixtures of liquids (1197-1232), virial gases (1397-1528), mixtures of gases (1625-1676).

`quadratic_from_f_ders`, `horner`, `horner_and_der2`, `polyder`, `linspace`, `COSTALD_compressed`, `ideal_gas`, `rho_to_Vm`, `mixing_simple` and `Amgat` of external libraries are their documented
formulas.
-/

namespace Verif.VolumeObj

/-! ## Extension of a fit below its lowest temperature -/

/-- A fit: its value and its two derivatives. -/
structure Fit where
  v : ℚ → ℚ
  d1 : ℚ → ℚ
  d2 : ℚ → ℚ

/-- `linspace(Tmin, Tmax, 25)` at 445. -/
def points (Tmin Tmax : ℚ) : List ℚ := (List.range 25).map fun k : ℕ => Tmin + k * ((Tmax - Tmin) / 24)

/-- The quadratic with value `v`, slope `d1` and second derivative `d2` at `T0` (`quadratic_from_f_ders`), as a function. -/
def quad (T0 v d1 d2 T : ℚ) : ℚ := v + d1 * (T - T0) + d2 / 2 * (T - T0) ^ 2

/-- Its slope. -/
def quadSlope (T0 d1 d2 T : ℚ) : ℚ := d1 + d2 * (T - T0)

/-- What is stored: the transition point `_Tmin_T_trans` and the quadratic, by its derivatives at `Tmin`. -/
structure Low where
  trans : ℚ
  v : ℚ
  d1 : ℚ
  d2 : ℚ
  deriving DecidableEq

/-- The loop of `_custom_set_poly_fit` (volume.py 445-462). The derivatives at `Tmin` of the first quadratic are those of the fit at the trial point. A division by zero ends the attempt (464: every
exception is swallowed). -/
def scan (f : Fit) (Tmin : ℚ) : List ℚ → Option Low
  | [] => none
  | T :: rest =>
    if f.d1 T < 0 then scan f Tmin rest
    else if f.d2 T = 0 then none
    else some ⟨T, f.v Tmin, f.d1 T, if Tmin - f.d1 T / f.d2 T > 0 then f.d1 T / Tmin else f.d2 T⟩

/-- `_custom_set_poly_fit` (volume.py 440-465); `none`: nothing is stored. -/
def setLow (f : Fit) (Tmin Tmax : ℚ) : Option Low := scan f Tmin (points Tmin Tmax)

/-- The stored quadratic. -/
def Low.eval (l : Low) (Tmin T : ℚ) : ℚ := quad Tmin l.v l.d1 l.d2 T

/-- Its slope. -/
def Low.slope (l : Low) (Tmin T : ℚ) : ℚ := quadSlope Tmin l.d1 l.d2 T

theorem scan_spec {f : Fit} {Tmin : ℚ} {ts : List ℚ} {l : Low} (h : scan f Tmin ts = some l) : ∃ pre post, ts = pre ++ l.trans :: post ∧ (∀ t ∈ pre, f.d1 t < 0) ∧ 0 ≤ f.d1 l.trans ∧
    f.d2 l.trans ≠ 0 ∧ l.v = f.v Tmin ∧ l.d1 = f.d1 l.trans ∧ l.d2 = if Tmin - f.d1 l.trans / f.d2 l.trans > 0 then f.d1 l.trans / Tmin else f.d2 l.trans := by
  induction ts with
  | nil => simp [scan] at h
  | cons T rest ih =>
    unfold scan at h
    by_cases h1 : f.d1 T < 0
    · rw [if_pos h1] at h
      obtain ⟨pre, post, e, hp, r⟩ := ih h
      refine ⟨T :: pre, post, by rw [e]; rfl, ?_, r⟩
      intro t ht
      rcases List.mem_cons.1 ht with rfl | ht
      · exact h1
      · exact hp t ht
    · rw [if_neg h1] at h
      by_cases h2 : f.d2 T = 0
      · rw [if_pos h2] at h; simp at h
      · rw [if_neg h2, Option.some.injEq] at h
        subst h
        exact ⟨[], rest, rfl, by simp, not_lt.1 h1, h2, rfl, rfl, rfl⟩

/-- The extension continues the fit at its lowest temperature and never falls on the way up from absolute zero; the transition point is the first of the 25 trial points where the fit does not fall. -/
theorem C114_low (f : Fit) (Tmin Tmax : ℚ) (h0 : 0 < Tmin) (l : Low) (h : setLow f Tmin Tmax = some l) : l.eval Tmin Tmin = f.v Tmin ∧ (∀ T, 0 ≤ T → T ≤ Tmin → 0 ≤ l.slope Tmin T) ∧
    (∀ T U, 0 ≤ T → T ≤ U → U ≤ Tmin → l.eval Tmin T ≤ l.eval Tmin U) ∧ (∃ k : ℕ, k < 25 ∧ l.trans = Tmin + k * ((Tmax - Tmin) / 24) ∧ ∀ j : ℕ, j < k → f.d1 (Tmin + j * ((Tmax - Tmin) / 24)) < 0) ∧
      l.slope Tmin Tmin = f.d1 l.trans := by
  obtain ⟨pre, post, e, hp, h1, h2, hv, hd1, hd2⟩ := scan_spec h
  have hs : ∀ T, 0 ≤ T → T ≤ Tmin → 0 ≤ l.slope Tmin T := by
    intro T hT hT2
    unfold Low.slope quadSlope
    rw [hd1, hd2]
    split_ifs with hc
    · have : f.d1 l.trans + f.d1 l.trans / Tmin * (T - Tmin) = f.d1 l.trans * (T / Tmin) := by field_simp; ring
      rw [this]
      exact mul_nonneg h1 (div_nonneg hT h0.le)
    · have hx : Tmin ≤ f.d1 l.trans / f.d2 l.trans := by linarith
      have hpos : 0 < f.d2 l.trans := by
        by_contra hn
        have : f.d1 l.trans / f.d2 l.trans ≤ 0 := div_nonpos_of_nonneg_of_nonpos h1 (not_lt.1 hn)
        linarith
      rw [le_div_iff₀ hpos] at hx
      nlinarith
  refine ⟨by simp [Low.eval, quad, hv], hs, ?_, ?_, by simp [Low.slope, quadSlope, hd1]⟩
  · intro T U hT hTU hU
    have e1 : l.eval Tmin U - l.eval Tmin T = (U - T) * ((l.slope Tmin T + l.slope Tmin U) / 2) := by
      unfold Low.eval Low.slope quad quadSlope; ring
    have := mul_nonneg (sub_nonneg.2 hTU) (div_nonneg (add_nonneg (hs T hT (hTU.trans hU)) (hs U (hT.trans hTU) hU)) (by norm_num : (0 : ℚ) ≤ 2))
    linarith
  · have hlen : (points Tmin Tmax).length = 25 := by simp [points]
    have hk : pre.length < 25 := by
      rw [← hlen, e]; simp
    have get : ∀ j (hj : j < (points Tmin Tmax).length), (points Tmin Tmax)[j] = Tmin + j * ((Tmax - Tmin) / 24) := by
      intro j hj; simp [points]
    refine ⟨pre.length, hk, ?_, ?_⟩
    · rw [← get pre.length (by rw [hlen]; exact hk)]
      simp [e]
    · intro j hj
      rw [← get j (by rw [hlen]; exact hj.trans hk)]
      have : (points Tmin Tmax)[j]'(by rw [hlen]; exact hj.trans hk) = pre[j] := by
        simp [e, List.getElem_append_left, hj]
      rw [this]
      exact hp _ (List.getElem_mem hj)

/-- If the fit does not fall at its lowest temperature, the extension has its slope there. -/
theorem C114_low_smooth (f : Fit) (Tmin Tmax : ℚ) (h1 : 0 ≤ f.d1 Tmin) (h2 : f.d2 Tmin ≠ 0) : ∃ l, setLow f Tmin Tmax = some l ∧ l.trans = Tmin ∧ l.slope Tmin Tmin = f.d1 Tmin := by
  have e : points Tmin Tmax = Tmin :: (List.range' 1 24).map fun k : ℕ => Tmin + k * ((Tmax - Tmin) / 24) := by
    have : List.range 25 = 0 :: List.range' 1 24 := by decide
    rw [points, this, List.map_cons]
    simp
  refine ⟨⟨Tmin, f.v Tmin, f.d1 Tmin, if Tmin - f.d1 Tmin / f.d2 Tmin > 0 then f.d1 Tmin / Tmin else f.d2 Tmin⟩, ?_, rfl, by simp [Low.slope, quadSlope]⟩
  rw [setLow, e, scan, if_neg (not_lt.2 h1), if_neg h2]

/-- A parabola with its minimum inside the range: value `1 + (T - 200)²/10⁴` between 100 K and 340 K. -/
def parabola : Fit := ⟨fun T => 1 + (T - 200) ^ 2 / 10 ^ 4, fun T => 2 * (T - 200) / 10 ^ 4, fun _ => 2 / 10 ^ 4⟩

/-- Otherwise there is a kink: here the fit falls at 100 K and the extension arrives level. -/
theorem C114_low_kink_fails : ∃ l, setLow parabola 100 340 = some l ∧ l.trans = 200 ∧ l.slope 100 100 = 0 ∧ parabola.d1 100 < 0 := by
  refine ⟨⟨200, 2, 0, 0⟩, by decide +kernel, rfl, by norm_num [Low.slope, quadSlope], by norm_num [parabola]⟩

/-- A straight line gets no extension, however it rises: the second derivative is divided by. Nor does a fit that falls at all trial points. -/
theorem C114_low_linear_fails (f : Fit) (Tmin Tmax : ℚ) (h : (∀ T, f.d2 T = 0) ∨ ∀ T, f.d1 T < 0) : setLow f Tmin Tmax = none := by
  unfold setLow
  generalize points Tmin Tmax = ts
  induction ts with
  | nil => rfl
  | cons T rest ih =>
    unfold scan
    rcases h with h | h
    · split_ifs with h1 h2
      · exact ih
      · rfl
      · exact absurd (h T) h2
    · rw [if_pos (h T)]; exact ih

/-- The extension can become negative before absolute zero although the fit is positive. -/
theorem C114_low_positive_fails : ∃ (f : Fit) (l : Low), (∀ T, 100 ≤ T → 0 < f.v T) ∧ setLow f 100 340 = some l ∧ l.eval 100 0 < 0 := by
  refine ⟨⟨fun T => 1 + (T - 100) / 10 + (T - 100) ^ 2 / 2, fun T => 1 / 10 + (T - 100), fun _ => 1⟩, ⟨100, 1, 1 / 10, 1 / 1000⟩, ?_, by decide +kernel, ?_⟩
  · intro T hT
    dsimp only
    nlinarith [sq_nonneg (T - 100)]
  · norm_num [Low.eval, quad]

example : setLow ⟨fun T => 1 + T / 100 + T ^ 2 / 10 ^ 6, fun T => 1 / 100 + 2 * T / 10 ^ 6, fun _ => 2 / 10 ^ 6⟩ 100 340 = some ⟨100, 201 / 100, 51 / 5000, 2 / 10 ^ 6⟩ := by decide +kernel

/-! ## Inorganic liquids with a linear density -/

/-- `DIPPR100_rho_to_Vm` with the two coefficients set at 495-505: `Vm = MW/(1000 (A + B T))`. -/
def crcInorg (MW rho0 k Tm T : ℚ) : ℚ := MW / (1000 * ((rho0 + k * Tm) + (-k) * T))

/-- The density is the tabulated one at the melting point and falls by `k` per kelvin from there. -/
theorem C114_inorganic (MW rho0 k Tm T : ℚ) (hM : MW ≠ 0) (hr : rho0 - k * (T - Tm) ≠ 0) : MW / 1000 / crcInorg MW rho0 k Tm T = rho0 - k * (T - Tm) ∧ crcInorg MW rho0 k Tm Tm = MW / (1000 * rho0) := by
  constructor
  · unfold crcInorg
    have : (rho0 + k * Tm) + (-k) * T = rho0 - k * (T - Tm) := by ring
    rw [this]
    field_simp
  · unfold crcInorg
    congr 2
    ring

example : crcInorg 100 2000 (1 / 2) 500 600 = 100 / (1000 * 1950) := by norm_num [crcInorg]

/-! ## Compressed liquids -/

open Real

/-- `COSTALD_compressed` of `chemicals` (documented): `Vs (1 - C ln((B + P)/(B + Psat)))`, with `B`, `C` functions of temperature. -/
noncomputable def costaldCompressed (B C Vs P Psat : ℝ) : ℝ := Vs * (1 - C * log ((B + P) / (B + Psat)))

/-- `VolumeLiquid.calculate_P`, the branch `COSTALD_COMPRESSED` (690-694). -/
noncomputable def compressed (B C Vs P Psat : ℝ) : ℝ := if P > Psat then costaldCompressed B C Vs P Psat else Vs

/-- At and below the vapour pressure the volume is the saturated one, above it is smaller and falls with pressure, without a jump at the vapour pressure. -/
theorem C114_compressed (B C Vs Psat : ℝ) (hB : 0 < B + Psat) (hC : 0 < C) (hV : 0 < Vs) : (∀ P ≤ Psat, compressed B C Vs P Psat = Vs) ∧ (∀ P, Psat < P → compressed B C Vs P Psat < Vs) ∧
    (∀ P Q, Psat ≤ P → P < Q → compressed B C Vs Q Psat < compressed B C Vs P Psat) ∧ ContinuousAt (fun P => compressed B C Vs P Psat) Psat := by
  have hsat : costaldCompressed B C Vs Psat Psat = Vs := by simp [costaldCompressed, div_self hB.ne']
  have anti : ∀ P Q, Psat ≤ P → P < Q → costaldCompressed B C Vs Q Psat < costaldCompressed B C Vs P Psat := by
    intro P Q hP hPQ
    unfold costaldCompressed
    refine mul_lt_mul_of_pos_left ?_ hV
    have h1 : log ((B + P) / (B + Psat)) < log ((B + Q) / (B + Psat)) := log_lt_log (div_pos (by linarith) hB) (div_lt_div_of_pos_right (by linarith) hB)
    nlinarith
  have eq : ∀ P, Psat ≤ P → compressed B C Vs P Psat = costaldCompressed B C Vs P Psat := by
    intro P hP
    unfold compressed
    split_ifs with h
    · rfl
    · rw [le_antisymm (not_lt.1 h) hP, hsat]
  refine ⟨fun P hP => if_neg (not_lt.2 hP), ?_, ?_, ?_⟩
  · intro P hP
    rw [eq P hP.le]
    have := anti Psat P le_rfl hP
    rwa [hsat] at this
  · intro P Q hP hPQ
    rw [eq P hP, eq Q (hP.trans hPQ.le)]
    exact anti P Q hP hPQ
  · have hc : ContinuousAt (fun P => costaldCompressed B C Vs P Psat) Psat := by
      unfold costaldCompressed
      have h0 : (B + Psat) / (B + Psat) ≠ 0 := by rw [div_self hB.ne']; exact one_ne_zero
      exact continuousAt_const.mul (continuousAt_const.sub (continuousAt_const.mul (((continuousAt_const.add continuousAt_id).div_const _).log h0)))
    have e : (fun P => compressed B C Vs P Psat) = fun P => costaldCompressed B C Vs (max P Psat) Psat := by
      funext P
      rcases le_total P Psat with h | h
      · rw [max_eq_right h, hsat]; exact if_neg (not_lt.2 h)
      · rw [max_eq_left h, eq P h]
    rw [e]
    have hm : ContinuousAt (fun P : ℝ => max P Psat) Psat := continuousAt_id.max continuousAt_const
    have hc' : ContinuousAt (fun P => costaldCompressed B C Vs P Psat) ((fun P : ℝ => max P Psat) Psat) := by simpa using hc
    exact ContinuousAt.comp (f := fun P : ℝ => max P Psat) hc' hm

/-- There is no limit to the compression: beyond some pressure the volume is negative. -/
theorem C114_compressed_positive_fails (B C Vs Psat : ℝ) (hB : 0 < B + Psat) (hC : 0 < C) (hV : 0 < Vs) : ∃ P, Psat < P ∧ compressed B C Vs P Psat < 0 := by
  refine ⟨(B + Psat) * exp (2 / C) - B, ?_, ?_⟩
  · have : 1 < exp (2 / C) := one_lt_exp_iff.2 (by positivity)
    nlinarith
  · have h1 : 1 < exp (2 / C) := one_lt_exp_iff.2 (by positivity)
    rw [compressed, if_pos (by nlinarith), costaldCompressed]
    have e : (B + ((B + Psat) * exp (2 / C) - B)) / (B + Psat) = exp (2 / C) := by field_simp; ring
    rw [e, log_exp]
    have : C * (2 / C) = 2 := by field_simp
    rw [this]
    linarith

example : (0 : ℝ) < 5e7 + 1e5 ∧ (0 : ℝ) < 0.09 ∧ (0 : ℝ) < 1e-4 := by norm_num

/-! ## Tait data -/

/-- `horner` with the highest power first. -/
def horner (c : List ℝ) (x : ℝ) : ℝ := c.foldl (fun t a => t * x + a) 0

/-- `polyder` with the constant first: multiply by the index and shift. -/
def polyderFrom : ℕ → List ℝ → List ℝ
  | _, [] => []
  | k, a :: rest => (k : ℝ) * a :: polyderFrom (k + 1) rest

/-- `polyder`. -/
def polyder : List ℝ → List ℝ
  | [] => []
  | _ :: rest => polyderFrom 1 rest

/-- One of the two lists of `Tait_data` (767-769, 774-776): temperature, slope and value at both ends and the three lists of coefficients. -/
structure TaitData where
  Tmin : ℝ
  slopeMin : ℝ
  valueMin : ℝ
  Tmax : ℝ
  slopeMax : ℝ
  valueMax : ℝ
  coeffs : List ℝ
  d : List ℝ
  d2 : List ℝ

/-- `VolumeLiquid.Tait_data` (745-778): own coefficients if there are any, else those fitted to COSTALD; limits at reduced temperatures 0.27 and 0.95. -/
noncomputable def taitData (Tc : ℝ) (own : Option (List ℝ)) (costald : List ℝ) : TaitData :=
  let Tmin := Tc * 0.27
  let Tmax := Tc * 0.95
  let c := own.getD costald
  let d := (polyder c.reverse).reverse
  let d2 := (polyder d.reverse).reverse
  ⟨Tmin, horner d Tmin, horner c Tmin, Tmax, horner d Tmax, horner c Tmax, c, d, d2⟩

/-- Value of a polynomial with the constant first. -/
def evalLow : List ℝ → ℝ → ℝ
  | [], _ => 0
  | a :: rest, x => a + x * evalLow rest x

theorem horner_reverse (c : List ℝ) (x : ℝ) : horner c.reverse x = evalLow c x := by
  unfold horner
  induction c with
  | nil => rfl
  | cons a rest ih =>
    rw [List.reverse_cons, List.foldl_append, ih]
    simp only [List.foldl_cons, List.foldl_nil, evalLow]
    ring

theorem evalLow_polyderFrom (k : ℕ) (c : List ℝ) (x : ℝ) : evalLow (polyderFrom (k + 1) c) x = evalLow (polyderFrom k c) x + evalLow c x := by
  induction c generalizing k with
  | nil => simp [polyderFrom, evalLow]
  | cons a rest ih =>
    simp only [polyderFrom, evalLow, ih (k + 1)]
    push_cast
    ring

theorem evalLow_deriv (c : List ℝ) (x : ℝ) : HasDerivAt (evalLow c) (evalLow (polyder c) x) x := by
  induction c with
  | nil => exact (hasDerivAt_const x (0 : ℝ)).congr_deriv rfl
  | cons a rest ih =>
    have h := (((hasDerivAt_id x).fun_mul ih).const_add a)
    have e : (fun y => a + id y * evalLow rest y) = evalLow (a :: rest) := by funext y; simp [evalLow]
    rw [e] at h
    refine h.congr_deriv ?_
    rw [show polyder (a :: rest) = polyderFrom 1 rest from rfl, id]
    have h1 := evalLow_polyderFrom 0 rest x
    have h0 : evalLow (polyderFrom 0 rest) x = x * evalLow (polyder rest) x := by
      cases rest with
      | nil => simp [polyderFrom, polyder, evalLow]
      | cons b r => simp [polyderFrom, polyder, evalLow]
    rw [h0] at h1
    simp only [zero_add] at h1
    linarith

/-- The lists hold the polynomial with its first and second derivatives, and value and slope of it at both ends; own coefficients take precedence. -/
theorem C114_tait (Tc : ℝ) (own : Option (List ℝ)) (costald : List ℝ) : (∀ x, HasDerivAt (horner (taitData Tc own costald).coeffs) (horner (taitData Tc own costald).d x) x) ∧
    (∀ x, HasDerivAt (horner (taitData Tc own costald).d) (horner (taitData Tc own costald).d2 x) x) ∧
    HasDerivAt (horner (taitData Tc own costald).coeffs) (taitData Tc own costald).slopeMin (taitData Tc own costald).Tmin ∧
    HasDerivAt (horner (taitData Tc own costald).coeffs) (taitData Tc own costald).slopeMax (taitData Tc own costald).Tmax ∧
    (taitData Tc own costald).valueMin = horner (taitData Tc own costald).coeffs (taitData Tc own costald).Tmin ∧
    (taitData Tc own costald).valueMax = horner (taitData Tc own costald).coeffs (taitData Tc own costald).Tmax ∧
    (∀ c, own = some c → (taitData Tc own costald).coeffs = c) ∧ (own = none → (taitData Tc own costald).coeffs = costald) ∧
    (taitData Tc own costald).Tmin = 0.27 * Tc ∧ (taitData Tc own costald).Tmax = 0.95 * Tc := by
  have der : ∀ (c : List ℝ) x, HasDerivAt (horner c) (horner (polyder c.reverse).reverse x) x := by
    intro c x
    have e : horner c = evalLow c.reverse := by
      funext y
      rw [← horner_reverse, List.reverse_reverse]
    rw [e, horner_reverse]
    exact evalLow_deriv _ _
  refine ⟨fun x => der _ x, fun x => der _ x, der _ _, der _ _, rfl, rfl, ?_, ?_, mul_comm _ _, mul_comm _ _⟩
  · rintro c rfl; rfl
  · rintro rfl; rfl

example : (taitData 500 none [2, 3, 5]).d = [4, 3] ∧ (taitData 500 none [2, 3, 5]).d2 = [4] := by
  constructor <;> norm_num [taitData, polyder, polyderFrom]

/-! ## Gases -/

/-- Methods of `VolumeGas`. -/
inductive GasMethod
  | eos | tsonopoulosExtended | tsonopoulos | abbott | pitzerCurl | crcVirial | ideal | coolprop
  deriving DecidableEq

/-- `ideal_gas(T, P) + B` (1452-1466). -/
noncomputable def virialVolume (R T P B : ℝ) : ℝ := R * T / P + B

/-- The polynomial of the CRC table (1463-1465). -/
noncomputable def crcB (a1 a2 a3 a4 a5 T : ℝ) : ℝ :=
  let t := 298.15 / T - 1
  (a1 + t * (a2 + t * (a3 + t * (a4 + a5 * t)))) * 1e-6

/-- `VolumeGas.test_method_validity_P` (1510-1528); `stable` says whether the equation of state finds the pressure below its vapour pressure, `gaseous` what CoolProp answers. -/
def validGas (T P : ℝ) (m : GasMethod) (stable gaseous : Bool) : Prop :=
  if T < 0 ∨ P < 0 then False
  else if m ∈ [GasMethod.tsonopoulosExtended, .tsonopoulos, .abbott, .pitzerCurl, .crcVirial, .ideal, .eos] then True
  else if m = .eos then stable = true
  else gaseous = true

/-- The compressibility factor is `1 + B P/(R T)`, and the CRC coefficient at 298.15 K is the first number of the table in cm³/mol. -/
theorem C114_virial (R T P B a1 a2 a3 a4 a5 : ℝ) (hR : R ≠ 0) (hT : T ≠ 0) (hP : P ≠ 0) : P * virialVolume R T P B / (R * T) = 1 + B * P / (R * T) ∧ virialVolume R T P 0 = R * T / P ∧
    crcB a1 a2 a3 a4 a5 298.15 = a1 / 10 ^ 6 ∧
    crcB a1 a2 a3 a4 a5 T * 10 ^ 6 = a1 + a2 * (298.15 / T - 1) + a3 * (298.15 / T - 1) ^ 2 + a4 * (298.15 / T - 1) ^ 3 + a5 * (298.15 / T - 1) ^ 4 := by
  refine ⟨?_, by simp [virialVolume], ?_, ?_⟩
  · unfold virialVolume; field_simp
  · unfold crcB
    dsimp only
    rw [div_self (by norm_num)]
    norm_num
    ring
  · unfold crcB
    dsimp only
    norm_num
    ring

/-- With a negative coefficient the volume is negative beyond the pressure `-R T/B`, and all of this is called valid. -/
theorem C114_virial_positive_fails (R T B : ℝ) (hR : 0 < R) (hT : 0 < T) (hB : B < 0) (P : ℝ) (hP : 0 < P) : (virialVolume R T P B < 0 ↔ R * T / -B < P) ∧
    ∀ m, m ≠ .coolprop → validGas T P m false false := by
  constructor
  · unfold virialVolume
    rw [div_lt_iff₀ (by linarith)]
    constructor
    · intro h
      have h1 : R * T / P < -B := by linarith
      rw [div_lt_iff₀ hP] at h1
      linarith
    · intro h
      have h1 : R * T / P < -B := by rw [div_lt_iff₀ hP]; linarith
      linarith
  · intro m hm
    unfold validGas
    rw [if_neg (by push Not; exact ⟨hT.le, hP.le⟩)]
    cases m <;> first | exact absurd rfl hm | simp

/-- The test of the vapour pressure written for the equation of state is never reached: the answer does not depend on it. -/
theorem C114_validity_fails (T P : ℝ) (m : GasMethod) (s s' g : Bool) : (validGas T P m s g ↔ validGas T P m s' g) ∧ (0 ≤ T → 0 ≤ P → validGas T P .eos false g) ∧ (0 ≤ T → 0 ≤ P → (validGas T P .coolprop s g ↔ g = true)) := by
  refine ⟨?_, ?_, fun h1 h2 => by simp [validGas, h1.not_gt, h2.not_gt]⟩
  · unfold validGas
    cases m <;> simp
  · intro h1 h2
    unfold validGas
    rw [if_neg (by push Not; exact ⟨h1, h2⟩)]
    simp

example : virialVolume 8 300 100000 (-0.0001) = 0.0239 ∧ virialVolume 8 300 100000000 (-0.0001) < 0 := by norm_num [virialVolume]

/-! ## Supercritical liquids -/

/-- Roots an equation of state may have. -/
structure Roots where
  Vl : Option ℝ
  Vg : Option ℝ

/-- Methods a user may ask for: by name of a table, of data over temperature or over temperature and pressure. -/
inductive SupMethod
  | coolprop
  | eos
  | named (name : String)

/-- `VolumeSupercriticalLiquid.calculate_P` (946-956); `tables` are the names in `tabular_data`. `none` is an exception, that of an unbound name among them. -/
def supVolume (coolprop : Option ℝ) (r : Roots) (tables : List String) (interp : String → Option ℝ) : SupMethod → Option ℝ
  | .coolprop => coolprop
  | .eos => r.Vl <|> r.Vg
  | .named n => if n ∈ tables then interp n else none

/-- `test_method_validity_P` for the equation of state (987-988). -/
def supValid (r : Roots) : Prop := r.Vl.isSome

/-- Above the critical point an equation of state with one root may name it a gas root. The value is then found, but the method is called invalid. -/
theorem C114_supercritical_fails (c : Option ℝ) (V : ℝ) (ts : List String) (f : String → Option ℝ) : supVolume c ⟨none, some V⟩ ts f .eos = some V ∧ ¬ supValid ⟨none, some V⟩ :=
  ⟨rfl, by simp [supValid]⟩

/-- Where it is called valid, the value is the liquid root; and where either root exists the value is found. -/
theorem C114_supercritical_partial (c : Option ℝ) (r : Roots) (ts : List String) (f : String → Option ℝ) : (supValid r → supVolume c r ts f .eos = r.Vl) ∧
    ((supVolume c r ts f .eos).isSome ↔ r.Vl.isSome ∨ r.Vg.isSome) := by
  obtain ⟨l, g⟩ := r
  cases l <;> cases g <;> simp [supVolume, supValid]

/-- Tables over temperature and pressure are kept in `tabular_data_P`, but the lookup is in `tabular_data`: a table added by the user is not found unless one over temperature has its name. -/
theorem C114_supercritical_table_fails (c : Option ℝ) (r : Roots) (tablesP : List String) (f : String → Option ℝ) (n : String) (_ : n ∈ tablesP) : supVolume c r [] f (.named n) = none := rfl

/-! ## Mixtures -/

open Finset in
/-- `mixing_simple` and `Amgat`: `none` is the `TypeError` of a missing value. -/
noncomputable def mix {N : ℕ} (z : Fin N → ℝ) (V : Fin N → Option ℝ) : Option ℝ := if ∀ i, (V i).isSome then some (∑ i, z i * (V i).getD 0) else none

/-- `VolumeLiquidMixture.calculate`, `LINEAR` (1198-1207): pure volumes under pressure, or at saturation if that gives `None` or the correction is switched off. -/
noncomputable def linear {N : ℕ} (correct : Bool) (TP Tonly : Fin N → Option ℝ) (z : Fin N → ℝ) : Option ℝ :=
  mix z (if correct then fun i => TP i <|> Tonly i else Tonly)

/-- `VolumeGasMixture.calculate` (1656-1667) without the equation of state. -/
inductive MixMethod
  | linear | linearMissingIdeal | ideal

/-- The three methods of gas mixtures. -/
noncomputable def gasMix {N : ℕ} (ideal : ℝ) (V : Fin N → Option ℝ) (z : Fin N → ℝ) : MixMethod → Option ℝ
  | .linear => mix z V
  | .linearMissingIdeal => mix z fun i => some ((V i).getD ideal)
  | .ideal => some ideal

theorem mix_some {N : ℕ} (z : Fin N → ℝ) (V : Fin N → ℝ) : mix z (fun i => some (V i)) = some (∑ i, z i * V i) := by
  simp [mix]

theorem mix_isSome {N : ℕ} {z : Fin N → ℝ} {V : Fin N → Option ℝ} : (mix z V).isSome ↔ ∀ i, (V i).isSome := by
  unfold mix; split_ifs with h
  · simp [h]
  · exact ⟨fun h' => absurd h' (by simp), fun h' => absurd h' h⟩

/-- Ideal mixing of liquids: a value exists exactly if every component has one, under pressure or at saturation; it is the average, and lies between the volumes of the components. -/
theorem C114_linear {N : ℕ} (TP Tonly : Fin N → Option ℝ) (z : Fin N → ℝ) (hz : ∀ i, 0 ≤ z i) (hs : ∑ i, z i = 1) (correct : Bool) :
    ((linear correct TP Tonly z).isSome ↔ ∀ i, (correct = true ∧ (TP i).isSome) ∨ (Tonly i).isSome) ∧
    (∀ V lo hi, linear correct TP Tonly z = some V → (∀ i x, TP i = some x ∨ Tonly i = some x → lo ≤ x ∧ x ≤ hi) → lo ≤ V ∧ V ≤ hi) ∧
    (∀ W : Fin N → ℝ, (∀ i, TP i = some (W i)) → linear true TP Tonly z = some (∑ i, z i * W i)) := by
  refine ⟨?_, ?_, ?_⟩
  · unfold linear
    rw [mix_isSome]
    refine forall_congr' fun i => ?_
    cases correct
    · simp
    · cases h : TP i <;> simp [h]
  · intro V lo hi h hb
    unfold linear at h
    generalize hU : (if correct = true then fun i => TP i <|> Tonly i else Tonly) = U at h
    unfold mix at h
    split_ifs at h with hc
    rw [Option.some.injEq] at h
    have hbound : ∀ i, lo ≤ (U i).getD 0 ∧ (U i).getD 0 ≤ hi := by
      intro i
      obtain ⟨x, hx⟩ := Option.isSome_iff_exists.1 (hc i)
      rw [hx, Option.getD_some]
      refine hb i x ?_
      rw [← hU] at hx
      cases correct
      · right; simpa using hx
      · simp only [if_true] at hx
        cases hT : TP i with
        | none => rw [hT] at hx; right; simpa using hx
        | some y => rw [hT] at hx; left; simpa using hx
    subst h
    constructor
    · calc lo = ∑ i, z i * lo := by rw [← Finset.sum_mul, hs, one_mul]
        _ ≤ _ := Finset.sum_le_sum fun i _ => mul_le_mul_of_nonneg_left (hbound i).1 (hz i)
    · calc _ ≤ ∑ i, z i * hi := Finset.sum_le_sum fun i _ => mul_le_mul_of_nonneg_left (hbound i).2 (hz i)
        _ = hi := by rw [← Finset.sum_mul, hs, one_mul]
  · intro W hW
    unfold linear
    rw [if_pos rfl]
    have : (fun i => TP i <|> Tonly i) = fun i => some (W i) := by funext i; simp [hW i]
    rw [this, mix_some]

/-- Gas mixtures: ideal mixing with missing values taken as ideal always gives a value, the average of the known volumes and the ideal ones; it is the plain average when nothing is missing and the ideal
volume when everything is; the ideal volume does not depend on composition. -/
theorem C114_gas_mixture {N : ℕ} (ideal : ℝ) (V : Fin N → Option ℝ) (z : Fin N → ℝ) (hs : ∑ i, z i = 1) :
    gasMix ideal V z .linearMissingIdeal = some (∑ i, z i * (V i).getD ideal) ∧
    ((∀ i, (V i).isSome) → gasMix ideal V z .linearMissingIdeal = gasMix ideal V z .linear) ∧
    ((∀ i, V i = none) → gasMix ideal V z .linearMissingIdeal = gasMix ideal V z .ideal) ∧
    ((∀ i, V i = some ideal) → gasMix ideal V z .linear = gasMix ideal V z .ideal) ∧ (gasMix ideal V z .linear = none ↔ ∃ i, V i = none) := by
  have hone : ∑ i, z i * ideal = ideal := by rw [← Finset.sum_mul, hs, one_mul]
  refine ⟨mix_some _ _, ?_, ?_, ?_, ?_⟩
  · intro h
    simp only [gasMix]
    congr 1
    funext i
    obtain ⟨x, hx⟩ := Option.isSome_iff_exists.1 (h i)
    simp [hx]
  · intro h
    simp only [gasMix, h, Option.getD_none, mix_some, hone]
  · intro h
    simp only [gasMix]
    have : V = fun i => some ideal := funext h
    rw [this, mix_some, hone]
  · simp only [gasMix, ← Option.not_isSome_iff_eq_none, mix_isSome]
    push Not
    rfl

example : gasMix 2 ![some 1, none] ![1 / 2, 1 / 2] .linearMissingIdeal = some (3 / 2) ∧ gasMix 2 ![some 1, none] ![1 / 2, 1 / 2] .linear = none := by
  constructor
  · rw [(C114_gas_mixture 2 ![some 1, none] ![1 / 2, 1 / 2] (by norm_num [Fin.sum_univ_two])).1]
    norm_num [Fin.sum_univ_two]
  · exact ((C114_gas_mixture 2 ![some 1, none] ![1 / 2, 1 / 2] (by norm_num [Fin.sum_univ_two])).2.2.2.2).2 ⟨1, rfl⟩

/-- The equation of state of a gas mixture is kept in a list shared with whoever passed it (1668-1670): state after a call. `E` are equation of state objects, `to` is `to_TP_zs`, and the answer the gas
root, `none` if there is none. -/
def eosCall {E S : Type} (move : E → S → E) (Vg : E → Option ℝ) (e : E) (s : S) : E × Option ℝ := (move e s, Vg (move e s))

/-- Answers do not depend on earlier calls if the objects can be moved freely. -/
theorem C114_history {E S : Type} (move : E → S → E) (Vg : E → Option ℝ) (hm : ∀ e s s', move (move e s) s' = move e s') (e : E) (calls : List S) (s : S) :
    (eosCall move Vg (calls.foldl (fun e s => (eosCall move Vg e s).1) e) s).2 = (eosCall move Vg e s).2 := by
  have h : ∀ (calls : List S) (e : E), move (calls.foldl (fun e s => (eosCall move Vg e s).1) e) s = move e s := by
    intro calls
    induction calls with
    | nil => intro e; rfl
    | cons t rest ih => intro e; rw [List.foldl_cons, ih]; exact hm e t s
  simp only [eosCall] at h ⊢
  rw [h]

/-- But the object the caller sees in the shared list is left at the conditions of the last call. -/
theorem C114_shared_fails {E S : Type} (move : E → S → E) (Vg : E → Option ℝ) (e : E) (s : S) (h : move e s ≠ e) : (eosCall move Vg e s).1 ≠ e := h

example : (eosCall (fun _ s => s) (fun e : ℚ × ℚ => some (e.1 / e.2)) (300, 1) (400, 2)).1 = (400, 2) := rfl

/-- `VolumeLiquidMixture.test_method_validity` (1225-1232) for own methods. -/
def validMix (all : List String) (m : String) (other : Prop) : Prop :=
  if "LALIBERTE" ∈ all ∧ m ∈ all then m = "LALIBERTE" else if m ∈ all then True else other

/-- If the electrolyte method is available it is the only valid one of the own methods, else all are. -/
theorem C114_mixture_validity (all : List String) (m : String) (other : Prop) (h : m ∈ all) : validMix all m other ↔ ("LALIBERTE" ∈ all → m = "LALIBERTE") := by
  unfold validMix
  by_cases hl : "LALIBERTE" ∈ all <;> simp [hl, h]

/-- Strings as ranked (1081-1082) and as exported (998): the module's list has the function `COSTALD` where the name `COSTALD_MIXTURE` belongs; a non-string is `none`. -/
def rankedMix : List (Option String) := [some "LALIBERTE", some "LINEAR", some "COSTALD_MIXTURE_FIT", some "RACKETT_PARAMETERS", some "COSTALD_MIXTURE", some "RACKETT"]

/-- `volume_liquid_mixture_methods` (998). -/
def exportedMix : List (Option String) := [some "LALIBERTE", some "LINEAR", some "COSTALD_MIXTURE_FIT", some "RACKETT_PARAMETERS", none, some "RACKETT"]

/-- One name of the method list is missing from the exported one, and one entry is not a name. -/
theorem C114_exported_fails : some "COSTALD_MIXTURE" ∉ exportedMix ∧ some "COSTALD_MIXTURE" ∈ rankedMix ∧ none ∈ exportedMix ∧ ∀ m ∈ rankedMix, m ≠ some "COSTALD_MIXTURE" → m ∈ exportedMix := by
  decide

end Verif.VolumeObj
