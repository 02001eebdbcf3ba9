import Mathlib.Analysis.Calculus.Deriv.Mul
import Mathlib.Analysis.Calculus.Deriv.Inv
import Mathlib.Analysis.Calculus.Deriv.Add
import Mathlib.Analysis.Calculus.Deriv.Slope
import Mathlib.Analysis.Calculus.Deriv.Pow
import Mathlib.Analysis.SpecialFunctions.Pow.Real
import Mathlib.Algebra.BigOperators.Group.List.Basic
import Mathlib.Tactic.FieldSimp
import Mathlib.Tactic.LinearCombination
import Mathlib.Tactic.Linarith
import Mathlib.Tactic.NormNum
import Mathlib.Tactic.Positivity

/-!
# The bulk of several phases (`thermo/bulk.py`, class `Bulk`)

* C68: the thermodynamic properties and the derivatives of the bulk.

A phase is described by its methods as functions of temperature and pressure (its composition is fixed). A
`Bulk` holds a list of phases and a list of phase fractions; here it is the list of pairs of both (`zip`), so the
loops `for i in range(len(betas))` of the code are sums over that list (the two lists have the same length in
`EquilibriumState.__init__`, equilibrium.py 284-332). Caches (`try: return self._X`) are not modelled.
-/

namespace Verif.Equil

/-- The methods of a phase which `Bulk` calls (bulk.py 979-1424), as functions of `T` and `P`. -/
structure Ph where
  V : ℝ → ℝ → ℝ
  H : ℝ → ℝ → ℝ
  S : ℝ → ℝ → ℝ
  Cp : ℝ → ℝ → ℝ
  dH_dP : ℝ → ℝ → ℝ
  dS_dT : ℝ → ℝ → ℝ
  dS_dP : ℝ → ℝ → ℝ
  dG_dT : ℝ → ℝ → ℝ
  dG_dP : ℝ → ℝ → ℝ
  dU_dT : ℝ → ℝ → ℝ
  dU_dP : ℝ → ℝ → ℝ
  dA_dT : ℝ → ℝ → ℝ
  dA_dP : ℝ → ℝ → ℝ
  dP_dT : ℝ → ℝ → ℝ
  dP_dV : ℝ → ℝ → ℝ
  kappa : ℝ → ℝ → ℝ
  isobaric_expansion : ℝ → ℝ → ℝ

/-- The loop `x = 0.0; for i in range(len(betas)): x += betas[i]*phases[i].f()` of every method
(e.g. bulk.py 996-1001). -/
def wsum {α : Type} (b : List (ℝ × α)) (f : α → ℝ) : ℝ := (b.map fun x => x.1 * f x.2).sum

/-- A bulk: phase fractions with phases (bulk.py 637-644). -/
abbrev Bk := List (ℝ × Ph)

namespace Bk
variable (b : Bk) (T P : ℝ)

/-- bulk.py 979-1001 -/
def V : ℝ := wsum b fun p => p.V T P
/-- bulk.py 1050-1073 -/
def H : ℝ := wsum b fun p => p.H T P
/-- bulk.py 1075-1098 -/
def S : ℝ := wsum b fun p => p.S T P
/-- bulk.py 1023-1048 -/
def Cp : ℝ := wsum b fun p => p.Cp T P
/-- bulk.py 1100-1111 -/
def dH_dP : ℝ := wsum b fun p => p.dH_dP T P
/-- bulk.py 1136-1147 -/
def dS_dT : ℝ := wsum b fun p => p.dS_dT T P
/-- bulk.py 1118-1129 -/
def dS_dP : ℝ := wsum b fun p => p.dS_dP T P
/-- bulk.py 1154-1165 -/
def dG_dT : ℝ := wsum b fun p => p.dG_dT T P
/-- bulk.py 1167-1178 -/
def dG_dP : ℝ := wsum b fun p => p.dG_dP T P
/-- bulk.py 1180-1191 -/
def dU_dT : ℝ := wsum b fun p => p.dU_dT T P
/-- bulk.py 1193-1204 -/
def dU_dP : ℝ := wsum b fun p => p.dU_dP T P
/-- bulk.py 1206-1217 -/
def dA_dT : ℝ := wsum b fun p => p.dA_dT T P
/-- bulk.py 1219-1230 -/
def dA_dP : ℝ := wsum b fun p => p.dA_dP T P
/-- bulk.py 1282-1309, the default of `dP_dT` (1456-1458) -/
def dP_dT : ℝ := wsum b fun p => p.dP_dT T P
/-- bulk.py 1311-1338, the default of `dP_dV` (1474-1476) -/
def dP_dV : ℝ := wsum b fun p => p.dP_dV T P

/-- Inherited from `Phase` (phase.py 1432-1452). -/
def G : ℝ := H b T P - T * S b T P
/-- Inherited from `Phase` (phase.py 1456-1471). -/
def U : ℝ := H b T P - P * V b T P
/-- Inherited from `Phase` (phase.py 1473-1488). -/
def A : ℝ := U b T P - T * S b T P
/-- Inherited from `Phase` (phase.py 2349-2374); `Cp_minus_Cv` of `chemicals` is `-T*dP_dT**2/dP_dV`. -/
noncomputable def Cv : ℝ := Cp b T P - (-T * (dP_dT b T P) ^ 2 / dP_dV b T P)
/-- Inherited from `Phase` (phase.py 2722-2744). -/
noncomputable def dV_dT : ℝ := -dP_dT b T P / dP_dV b T P
/-- Inherited from `Phase` (phase.py 2746-2763, with `dT_dP = 1/dP_dT`). -/
noncomputable def dV_dP : ℝ := -dV_dT b T P * (1 / dP_dT b T P)

/-- The volume fractions of the phases (`betas_volume`, bulk.py 692-714), with the phases. -/
noncomputable def volumeFractions : Bk := b.map fun x => (x.1 * x.2.V T P * (1 / V b T P), x.2)

/-- `kappa` with the default setting `MOLE_WEIGHTED` (bulk.py 1550-1571 and 748-763). -/
def kappaMole : ℝ := wsum b fun p => p.kappa T P
/-- `kappa` with the setting `VOLUME_WEIGHTED`. -/
noncomputable def kappaVolume : ℝ := wsum (volumeFractions b T P) fun p => p.kappa T P
/-- `isobaric_expansion` with the default setting `MOLE_WEIGHTED` (bulk.py 1527-1548 and 748-763). -/
def expansionMole : ℝ := wsum b fun p => p.isobaric_expansion T P
/-- `isobaric_expansion` with the setting `VOLUME_WEIGHTED`. -/
noncomputable def expansionVolume : ℝ := wsum (volumeFractions b T P) fun p => p.isobaric_expansion T P
/-- `kappa` with the setting `FROM_DERIVATIVE_SETTINGS` (bulk.py 1569-1570; `-dV_dP/V`). -/
noncomputable def kappaDerivative : ℝ := -dV_dP b T P / V b T P

end Bk

/-- `_equilibrium_derivative` (bulk.py 1427-1443): a forward difference of a flash result `f` (the value of `of`
as a function of the value of `wrt`, at the same value of `const`). -/
noncomputable def equilibriumDerivative (f : ℝ → ℝ) (pert x : ℝ) : ℝ :=
  (f (x * (1 + pert)) - f x) / (x * (1 + pert) - x)

/-- The molar `speed_of_sound` by `EQUILIBRIUM_DERIVATIVE` (bulk.py 1618-1619), with the derivative of the
pressure by the density at constant entropy. -/
noncomputable def speedEquilibrium (dP_drho : ℝ) : ℝ := dP_drho ^ (1 / 2 : ℝ)
/-- The molar `speed_of_sound` by `FIROOZABADI_PAN` (bulk.py 1620-1623), with the derivative of the volume by
the pressure at constant entropy. -/
noncomputable def speedFiroozabadi (V dV_dP_S : ℝ) : ℝ := Real.sqrt (V / (-1 / V * dV_dP_S))

/-! ## Specification -/

/-- The methods of a phase are what they are named after (proved for the phase classes in C61-C67). -/
structure Ph.Ok (p : Ph) (T P : ℝ) : Prop where
  H_T : HasDerivAt (fun t => p.H t P) (p.Cp T P) T
  H_P : HasDerivAt (fun q => p.H T q) (p.dH_dP T P) P
  S_T : HasDerivAt (fun t => p.S t P) (p.dS_dT T P) T
  S_P : HasDerivAt (fun q => p.S T q) (p.dS_dP T P) P
  G_T : HasDerivAt (fun t => p.H t P - t * p.S t P) (p.dG_dT T P) T
  G_P : HasDerivAt (fun q => p.H T q - T * p.S T q) (p.dG_dP T P) P
  U_T : HasDerivAt (fun t => p.H t P - P * p.V t P) (p.dU_dT T P) T
  U_P : HasDerivAt (fun q => p.H T q - q * p.V T q) (p.dU_dP T P) P
  A_T : HasDerivAt (fun t => p.H t P - P * p.V t P - t * p.S t P) (p.dA_dT T P) T
  A_P : HasDerivAt (fun q => p.H T q - q * p.V T q - T * p.S T q) (p.dA_dP T P) P
  V_T : HasDerivAt (fun t => p.V t P) (-p.dP_dT T P / p.dP_dV T P) T
  V_P : HasDerivAt (fun q => p.V T q) (1 / p.dP_dV T P) P
  V_pos : 0 < p.V T P
  stable : p.dP_dV T P < 0
  kappa_eq : p.kappa T P = -(1 / p.dP_dV T P) / p.V T P
  expansion_eq : p.isobaric_expansion T P = (-p.dP_dT T P / p.dP_dV T P) / p.V T P
  Maxwell : p.dS_dP T P = -(-p.dP_dT T P / p.dP_dV T P)

/-- All phases are such and all fractions are positive. -/
def Bk.Ok (b : Bk) (T P : ℝ) : Prop := ∀ x ∈ b, 0 < x.1 ∧ x.2.Ok T P

/-! ## Sums -/

section
variable {α : Type} {b : List (ℝ × α)} {f g : α → ℝ}

@[simp] theorem wsum_nil : wsum ([] : List (ℝ × α)) f = 0 := rfl
@[simp] theorem wsum_cons (x : ℝ × α) : wsum (x :: b) f = x.1 * f x.2 + wsum b f := by simp [wsum]

theorem wsum_sub : wsum b (fun p => f p - g p) = wsum b f - wsum b g := by
  induction b with
  | nil => simp
  | cons x b ih => simp only [wsum_cons, ih]; ring

theorem wsum_add : wsum b (fun p => f p + g p) = wsum b f + wsum b g := by
  induction b with
  | nil => simp
  | cons x b ih => simp only [wsum_cons, ih]; ring

theorem wsum_const_mul (c : ℝ) : wsum b (fun p => c * f p) = c * wsum b f := by
  induction b with
  | nil => simp
  | cons x b ih => simp only [wsum_cons, ih]; ring

theorem wsum_neg : wsum b (fun p => -f p) = -wsum b f := by
  induction b with
  | nil => simp
  | cons x b ih => simp only [wsum_cons, ih]; ring

theorem wsum_congr (h : ∀ x ∈ b, f x.2 = g x.2) : wsum b f = wsum b g := by
  induction b with
  | nil => simp
  | cons x b ih =>
    rw [wsum_cons, wsum_cons, h x (by simp), ih fun y hy => h y (by simp [hy])]

theorem wsum_deriv {F : ℝ → α → ℝ} {d : α → ℝ} {t : ℝ} (h : ∀ x ∈ b, HasDerivAt (fun s => F s x.2) (d x.2) t) :
    HasDerivAt (fun s => wsum b (F s)) (wsum b d) t := by
  induction b with
  | nil => simpa using hasDerivAt_const t (0 : ℝ)
  | cons x b ih =>
    have := ((h x (by simp)).const_mul x.1).add (ih fun y hy => h y (by simp [hy]))
    simp only [wsum_cons]
    exact this

theorem wsum_pos (hne : b ≠ []) (h : ∀ x ∈ b, 0 < x.1 ∧ 0 < f x.2) : 0 < wsum b f := by
  induction b with
  | nil => exact absurd rfl hne
  | cons x b ih =>
    have hx := h x (by simp)
    rw [wsum_cons]
    rcases b with _ | ⟨y, b⟩
    · simpa using mul_pos hx.1 hx.2
    · exact add_pos (mul_pos hx.1 hx.2) (ih (by simp) fun z hz => h z (by simp [hz]))

theorem wsum_nonneg (h : ∀ x ∈ b, 0 < x.1 ∧ 0 ≤ f x.2) : 0 ≤ wsum b f := by
  induction b with
  | nil => simp
  | cons x b ih =>
    have hx := h x (by simp)
    rw [wsum_cons]
    exact add_nonneg (mul_nonneg hx.1.le hx.2) (ih fun y hy => h y (by simp [hy]))

/-- The Cauchy-Schwarz inequality for the sums, in the form with quotients. -/
theorem wsum_sq_le (h : ∀ x ∈ b, 0 < x.1 ∧ 0 < g x.2) :
    (wsum b f) ^ 2 ≤ wsum b g * wsum b (fun p => f p ^ 2 / g p) := by
  induction b with
  | nil => simp
  | cons x b ih =>
    obtain ⟨hx, hg⟩ := h x (by simp)
    have ih := ih fun y hy => h y (by simp [hy])
    simp only [wsum_cons]
    have hG : 0 ≤ wsum b g := wsum_nonneg fun y hy => ⟨(h y (by simp [hy])).1, (h y (by simp [hy])).2.le⟩
    have hQ : 0 ≤ wsum b (fun p => f p ^ 2 / g p) := wsum_nonneg fun y hy =>
      ⟨(h y (by simp [hy])).1, div_nonneg (sq_nonneg _) (h y (by simp [hy])).2.le⟩
    generalize wsum b f = F at *
    generalize wsum b g = G at *
    generalize wsum b (fun p => f p ^ 2 / g p) = Q at *
    generalize x.1 = β at *
    generalize f x.2 = u at *
    generalize g x.2 = v at *
    have e : (β * v + G) * (β * (u ^ 2 / v) + Q) - (β * u + F) ^ 2
        = (G * Q - F ^ 2) + β * (v * Q + G * (u ^ 2 / v) - 2 * u * F) := by
      field_simp
      ring
    have k : 0 ≤ v * Q + G * (u ^ 2 / v) - 2 * u * F := by
      have h1 : 0 ≤ v * Q + G * (u ^ 2 / v) := by positivity
      have h2 : (2 * u * F) ^ 2 ≤ (v * Q + G * (u ^ 2 / v)) ^ 2 := by
        have : (v * Q + G * (u ^ 2 / v)) ^ 2 - 4 * (u ^ 2) * (G * Q) = (v * Q - G * (u ^ 2 / v)) ^ 2 := by
          field_simp
          ring
        nlinarith [sq_nonneg (v * Q - G * (u ^ 2 / v)), mul_le_mul_of_nonneg_left ih (by positivity : 0 ≤ 4 * u ^ 2)]
      have := abs_le_of_sq_le_sq' h2 h1
      linarith [this.2]
    nlinarith [mul_nonneg hx.le k]

end

theorem Bk.Ok.tail {x : ℝ × Ph} {b : Bk} {T P : ℝ} (h : Bk.Ok (x :: b) T P) : Bk.Ok b T P :=
  fun y hy => h y (by simp [hy])

/-! ## C68: properties of the bulk -/

/-- **C68.** Internal energy, Gibbs energy and Helmholtz energy of the bulk, which the code computes from the
enthalpy, entropy and volume of the bulk, are the sums over the phases of the phase fraction times the energy of
the phase: the energies are additive. -/
theorem C68_additive (b : Bk) (T P : ℝ) :
    b.G T P = (b.map fun x => x.1 * (x.2.H T P - T * x.2.S T P)).sum ∧
    b.U T P = (b.map fun x => x.1 * (x.2.H T P - P * x.2.V T P)).sum ∧
    b.A T P = (b.map fun x => x.1 * ((x.2.H T P - P * x.2.V T P) - T * x.2.S T P)).sum := by
  refine ⟨?_, ?_, ?_⟩
  · rw [Bk.G, Bk.H, Bk.S, ← wsum_const_mul, ← wsum_sub]; rfl
  · rw [Bk.U, Bk.H, Bk.V, ← wsum_const_mul, ← wsum_sub]; rfl
  · rw [Bk.A, Bk.U, Bk.H, Bk.V, Bk.S, ← wsum_const_mul, ← wsum_const_mul, ← wsum_sub, ← wsum_sub]; rfl

/-- **C68.** The derivatives by temperature and by pressure of enthalpy, entropy, Gibbs energy, internal energy
and Helmholtz energy reported by the bulk are the derivatives of the bulk property with the phases frozen
(constant fractions and compositions). -/
theorem C68_derivatives {b : Bk} {T P : ℝ} (h : b.Ok T P) :
    HasDerivAt (fun t => b.H t P) (b.Cp T P) T ∧ HasDerivAt (fun q => b.H T q) (b.dH_dP T P) P ∧
    HasDerivAt (fun t => b.S t P) (b.dS_dT T P) T ∧ HasDerivAt (fun q => b.S T q) (b.dS_dP T P) P ∧
    HasDerivAt (fun t => b.G t P) (b.dG_dT T P) T ∧ HasDerivAt (fun q => b.G T q) (b.dG_dP T P) P ∧
    HasDerivAt (fun t => b.U t P) (b.dU_dT T P) T ∧ HasDerivAt (fun q => b.U T q) (b.dU_dP T P) P ∧
    HasDerivAt (fun t => b.A t P) (b.dA_dT T P) T ∧ HasDerivAt (fun q => b.A T q) (b.dA_dP T P) P := by
  have eG : ∀ t q, b.G t q = wsum b fun p => p.H t q - t * p.S t q := fun t q => (C68_additive b t q).1
  have eU : ∀ t q, b.U t q = wsum b fun p => p.H t q - q * p.V t q := fun t q => (C68_additive b t q).2.1
  have eA : ∀ t q, b.A t q = wsum b fun p => p.H t q - q * p.V t q - t * p.S t q :=
    fun t q => (C68_additive b t q).2.2
  simp only [eG, eU, eA]
  exact ⟨wsum_deriv fun x hx => (h x hx).2.H_T, wsum_deriv fun x hx => (h x hx).2.H_P,
    wsum_deriv fun x hx => (h x hx).2.S_T, wsum_deriv fun x hx => (h x hx).2.S_P,
    wsum_deriv fun x hx => (h x hx).2.G_T, wsum_deriv fun x hx => (h x hx).2.G_P,
    wsum_deriv fun x hx => (h x hx).2.U_T, wsum_deriv fun x hx => (h x hx).2.U_P,
    wsum_deriv fun x hx => (h x hx).2.A_T, wsum_deriv fun x hx => (h x hx).2.A_P⟩

/-- The volume of the bulk with frozen phases: its derivatives by temperature and pressure. -/
theorem frozen_volume {b : Bk} {T P : ℝ} (h : b.Ok T P) :
    HasDerivAt (fun t => b.V t P) (wsum b fun p => -p.dP_dT T P / p.dP_dV T P) T ∧
    HasDerivAt (fun q => b.V T q) (wsum b fun p => 1 / p.dP_dV T P) P :=
  ⟨wsum_deriv fun x hx => (h x hx).2.V_T, wsum_deriv fun x hx => (h x hx).2.V_P⟩

/-- **C68.** With the setting `VOLUME_WEIGHTED`, the isothermal compressibility and the isobaric expansion of the
bulk are those of the bulk with frozen phases: `-(∂V/∂P)/V` and `(∂V/∂T)/V` of the bulk volume. -/
theorem C68_volume_weighted {b : Bk} {T P : ℝ} (hne : b ≠ []) (h : b.Ok T P) :
    HasDerivAt (fun q => b.V T q) (-(b.kappaVolume T P * b.V T P)) P ∧
    HasDerivAt (fun t => b.V t P) (b.expansionVolume T P * b.V T P) T := by
  have hV : b.V T P ≠ 0 := (wsum_pos hne fun x hx => ⟨(h x hx).1, (h x hx).2.V_pos⟩).ne'
  have key : ∀ (l : Bk) (W : ℝ) (f : Ph → ℝ) (g : Ph → ℝ), (∀ x ∈ l, x.2.V T P * f x.2 = g x.2) →
      wsum (l.map fun x => (x.1 * x.2.V T P * (1 / W), x.2)) f = wsum l g * (1 / W) := by
    intro l W f g hl
    induction l with
    | nil => simp
    | cons x l ih =>
      simp only [List.map_cons, wsum_cons]
      rw [ih fun y hy => hl y (by simp [hy])]
      linear_combination x.1 * (1 / W) * hl x (by simp)
  constructor
  · refine (frozen_volume h).2.congr_deriv ?_
    have := key b (b.V T P) (fun p => p.kappa T P) (fun p => -(1 / p.dP_dV T P)) fun x hx => by
      have hx := (h x hx).2
      have := hx.V_pos.ne'
      rw [hx.kappa_eq]; field_simp
    rw [Bk.kappaVolume, Bk.volumeFractions, this, wsum_neg]
    field_simp
  · refine (frozen_volume h).1.congr_deriv ?_
    have := key b (b.V T P) (fun p => p.isobaric_expansion T P) (fun p => -p.dP_dT T P / p.dP_dV T P) fun x hx => by
      have hx := (h x hx).2
      have := hx.V_pos.ne'
      rw [hx.expansion_eq]; field_simp
    rw [Bk.expansionVolume, Bk.volumeFractions, this]
    field_simp

/-- **C68.** If the derivatives of the Gibbs energy of every phase are minus its entropy and its volume, so are
those of the bulk; and the derivative of the bulk entropy by pressure is minus the derivative of the bulk volume
with frozen phases by temperature. -/
theorem C68_gibbs {b : Bk} {T P : ℝ} (h : b.Ok T P)
    (hG : ∀ x ∈ b, x.2.dG_dT T P = -x.2.S T P ∧ x.2.dG_dP T P = x.2.V T P) :
    b.dG_dT T P = -b.S T P ∧ b.dG_dP T P = b.V T P ∧
    HasDerivAt (fun t => b.V t P) (-b.dS_dP T P) T := by
  refine ⟨?_, wsum_congr fun x hx => (hG x hx).2, ?_⟩
  · rw [Bk.S, ← wsum_neg]
    exact wsum_congr fun x hx => (hG x hx).1
  · refine (frozen_volume h).1.congr_deriv ?_
    rw [Bk.dS_dP, ← wsum_neg]
    exact wsum_congr fun x hx => by rw [(h x hx).2.Maxwell]; ring

/-- **C68.** The default `dP_dV` of the bulk overestimates the stiffness: it is never greater (in absolute value
never smaller) than the derivative of the pressure by the bulk volume with frozen phases, when the fractions sum
to one. -/
theorem C68_stiffness {b : Bk} {T P d : ℝ} (hne : b ≠ []) (h : b.Ok T P) (h1 : (b.map Prod.fst).sum = 1)
    (hd : HasDerivAt (fun q => b.V T q) d P) : b.dP_dV T P ≤ 1 / d := by
  have e := hd.unique (frozen_volume h).2
  have c := wsum_sq_le (b := b) (f := fun _ => 1) (g := fun p => -p.dP_dV T P)
    fun x hx => ⟨(h x hx).1, neg_pos.mpr (h x hx).2.stable⟩
  have e1 : wsum b (fun _ => 1) = 1 := by simpa [wsum] using h1
  have e2 : wsum b (fun p => (1 : ℝ) ^ 2 / -p.dP_dV T P) = -d := by
    rw [e, ← wsum_neg]
    exact wsum_congr fun x hx => by rw [one_pow, div_neg]
  rw [e1, e2, wsum_neg] at c
  change 1 ^ 2 ≤ -b.dP_dV T P * -d at c
  have hd0 : d < 0 := by
    have := wsum_pos hne (f := fun p => -(1 / p.dP_dV T P)) fun x hx =>
      ⟨(h x hx).1, by have := (h x hx).2.stable; exact neg_pos.mpr (div_neg_of_pos_of_neg one_pos this)⟩
    rw [wsum_neg, ← e] at this
    linarith
  rw [le_div_iff_of_neg hd0]
  linarith

/-- **C68.** The heat capacity at constant volume which the bulk computes lies between the sum over the phases of
fraction times their `Cv` and the `Cp` of the bulk. -/
theorem C68_Cv_bounds {b : Bk} {T P : ℝ} (hne : b ≠ []) (hT : 0 < T) (h : b.Ok T P) :
    wsum b (fun p => p.Cp T P - (-T * p.dP_dT T P ^ 2 / p.dP_dV T P)) ≤ b.Cv T P ∧ b.Cv T P ≤ b.Cp T P := by
  have hs : b.dP_dV T P < 0 := by
    have := wsum_pos hne (f := fun p => -p.dP_dV T P) fun x hx => ⟨(h x hx).1, neg_pos.mpr (h x hx).2.stable⟩
    rw [wsum_neg] at this
    exact neg_pos.mp this
  have c := wsum_sq_le (b := b) (f := fun p => p.dP_dT T P) (g := fun p => -p.dP_dV T P)
    fun x hx => ⟨(h x hx).1, neg_pos.mpr (h x hx).2.stable⟩
  rw [wsum_neg] at c
  change b.dP_dT T P ^ 2 ≤ -b.dP_dV T P * _ at c
  have hQ : b.dP_dT T P ^ 2 / -b.dP_dV T P ≤ wsum b (fun p => p.dP_dT T P ^ 2 / -p.dP_dV T P) := by
    rw [div_le_iff₀ (neg_pos.mpr hs)]
    linarith
  constructor
  · rw [wsum_sub, Bk.Cv, ← Bk.Cp]
    have e : wsum b (fun p => -T * p.dP_dT T P ^ 2 / p.dP_dV T P)
        = T * wsum b (fun p => p.dP_dT T P ^ 2 / -p.dP_dV T P) := by
      rw [← wsum_const_mul]
      exact wsum_congr fun x hx => by
        have := (h x hx).2.stable.ne
        field_simp
    rw [e]
    have e' : -T * b.dP_dT T P ^ 2 / b.dP_dV T P = T * (b.dP_dT T P ^ 2 / -b.dP_dV T P) := by
      have := hs.ne
      field_simp
    rw [e']
    linarith [mul_le_mul_of_nonneg_left hQ hT.le]
  · rw [Bk.Cv]
    have : 0 ≤ -T * b.dP_dT T P ^ 2 / b.dP_dV T P := by
      rw [div_nonneg_iff]
      exact Or.inr ⟨by nlinarith [sq_nonneg (b.dP_dT T P)], hs.le⟩
    linarith

/-- **C68.** For a single phase (fraction one) the bulk reports the values of the phase: volume, the pressure
derivatives, compressibility and expansion with either weighting, and the heat capacities. -/
theorem C68_single {p : Ph} {T P : ℝ} (h : p.Ok T P) (hpT : p.dP_dT T P ≠ 0) :
    Bk.V [(1, p)] T P = p.V T P ∧ Bk.dP_dV [(1, p)] T P = p.dP_dV T P ∧ Bk.dP_dT [(1, p)] T P = p.dP_dT T P ∧
    Bk.kappaMole [(1, p)] T P = p.kappa T P ∧ Bk.kappaVolume [(1, p)] T P = p.kappa T P ∧
    Bk.kappaDerivative [(1, p)] T P = p.kappa T P ∧
    Bk.expansionMole [(1, p)] T P = p.isobaric_expansion T P ∧
    Bk.expansionVolume [(1, p)] T P = p.isobaric_expansion T P ∧
    HasDerivAt (fun t => Bk.V [(1, p)] t P) (Bk.dV_dT [(1, p)] T P) T ∧
    HasDerivAt (fun q => Bk.V [(1, p)] T q) (Bk.dV_dP [(1, p)] T P) P := by
  have hV := h.V_pos.ne'
  have hs := h.stable.ne
  have e : ∀ f : Ph → ℝ, wsum [((1 : ℝ), p)] f = f p := fun f => by simp
  refine ⟨e _, e _, e _, e _, ?_, ?_, e _, ?_, ?_, ?_⟩
  · simp only [Bk.kappaVolume, Bk.volumeFractions, Bk.V, e, List.map_cons, List.map_nil, wsum_cons, wsum_nil]
    field_simp
    ring
  · rw [h.kappa_eq]
    simp only [Bk.kappaDerivative, Bk.V, Bk.dV_dP, Bk.dV_dT, Bk.dP_dT, Bk.dP_dV, e]
    field_simp
  · simp only [Bk.expansionVolume, Bk.volumeFractions, Bk.V, e, List.map_cons, List.map_nil, wsum_cons, wsum_nil]
    field_simp
    ring
  · simp only [Bk.V, e, Bk.dV_dT, Bk.dP_dT, Bk.dP_dV]
    exact h.V_T
  · simp only [Bk.V, e, Bk.dV_dT, Bk.dP_dT, Bk.dP_dV, Bk.dV_dP]
    exact h.V_P.congr_deriv (by field_simp)

/-- **C68.** The forward difference of an equilibrium derivative is exact for affine results, and for a
differentiable result it tends to the derivative when the perturbation tends to zero. -/
theorem C68_equilibrium_derivative {f : ℝ → ℝ} {d x : ℝ} (hx : x ≠ 0) (hf : HasDerivAt f d x) :
    Filter.Tendsto (fun pert => equilibriumDerivative f pert x) (nhdsWithin 0 {0}ᶜ) (nhds d) := by
  have h := hasDerivAt_iff_tendsto_slope.mp hf
  have hc : Filter.Tendsto (fun pert : ℝ => x * (1 + pert)) (nhdsWithin 0 {0}ᶜ) (nhdsWithin x {x}ᶜ) := by
    refine tendsto_nhdsWithin_iff.mpr ⟨?_, ?_⟩
    · have : Filter.Tendsto (fun pert : ℝ => x * (1 + pert)) (nhds 0) (nhds (x * (1 + 0))) :=
        (Continuous.tendsto (by fun_prop) 0)
      rw [add_zero, mul_one] at this
      exact this.mono_left nhdsWithin_le_nhds
    · filter_upwards [self_mem_nhdsWithin] with pert hp
      intro he
      apply hp
      have : x * pert = 0 := by
        have : x * (1 + pert) = x := he
        linarith
      exact (mul_eq_zero.mp this).resolve_left hx
  refine (h.comp hc).congr fun pert => ?_
  simp only [Function.comp, slope_def_field, equilibriumDerivative]

/-- **C68.** The two equilibrium speeds of sound agree: if `ν` is the volume along the isentrope as a function of
the pressure and `π` the pressure along it as a function of the molar density, the method `FIROOZABADI_PAN` and
the method `EQUILIBRIUM_DERIVATIVE` give the same value. -/
theorem C68_speed_of_sound {ν π : ℝ → ℝ} {P dV dP : ℝ} (hV : 0 < ν P) (hν : HasDerivAt ν dV P)
    (hπ : HasDerivAt π dP (1 / ν P)) (hinv : ∀ᶠ q in nhds P, π (1 / ν q) = q) :
    speedFiroozabadi (ν P) dV = speedEquilibrium dP := by
  have h1 : HasDerivAt (fun q => 1 / ν q) (-dV / ν P ^ 2) P := by
    simp only [one_div]
    exact hν.inv hV.ne'
  have h2 : HasDerivAt (fun q => π (1 / ν q)) (dP * (-dV / ν P ^ 2)) P :=
    HasDerivAt.comp (h₂ := π) (h := fun q => 1 / ν q) P hπ h1
  have h3 := (h2.congr_of_eventuallyEq (hinv.mono fun q hq => hq.symm)).unique (hasDerivAt_id P)
  have hd : dV ≠ 0 := by
    rintro rfl
    simp at h3
  rw [speedFiroozabadi, speedEquilibrium, ← Real.sqrt_eq_rpow]
  congr 1
  have hV' := hV.ne'
  field_simp at h3 ⊢
  linear_combination h3

/-! ## Examples and the defaults -/

/-- A phase whose volume is `a + c T - k P` (entropy `T - c P`). -/
noncomputable def demoPh (a c k : ℝ) : Ph where
  V T P := a + c * T - k * P
  H T P := T ^ 2 / 2 + a * P - k * P ^ 2 / 2
  S T P := T - c * P
  Cp T _ := T
  dH_dP _ P := a - k * P
  dS_dT _ _ := 1
  dS_dP _ _ := -c
  dG_dT T P := -(T - c * P)
  dG_dP T P := a + c * T - k * P
  dU_dT T P := T - c * P
  dU_dP T P := k * P - c * T
  dA_dT T _ := -T
  dA_dP _ P := k * P
  dP_dT _ _ := c / k
  dP_dV _ _ := -1 / k
  kappa T P := k / (a + c * T - k * P)
  isobaric_expansion T P := c / (a + c * T - k * P)

private theorem quad (u v w x : ℝ) {f : ℝ → ℝ} (hf : ∀ t, f t = u + v * t + w * t ^ 2) :
    HasDerivAt f (v + 2 * w * x) x := by
  have h := ((hasDerivAt_const x u).add ((hasDerivAt_id x).const_mul v)).add ((hasDerivAt_pow 2 x).const_mul w)
  have e : f = ((fun _ => u) + fun t => v * id t) + fun t => w * t ^ 2 := by
    funext t; simp [hf]
  rw [e]
  exact h.congr_deriv (by norm_num; ring)

theorem demoPh_ok {a c k T P : ℝ} (hk : 0 < k) (hV : 0 < a + c * T - k * P) : (demoPh a c k).Ok T P where
  H_T := (quad (a * P - k * P ^ 2 / 2) 0 (1 / 2) T fun t => by simp only [demoPh]; ring).congr_deriv
    (by simp only [demoPh]; ring)
  H_P := (quad (T ^ 2 / 2) a (-k / 2) P fun t => by simp only [demoPh]; ring).congr_deriv
    (by simp only [demoPh]; ring)
  S_T := (quad (-(c * P)) 1 0 T fun t => by simp only [demoPh]; ring).congr_deriv (by simp only [demoPh]; ring)
  S_P := (quad T (-c) 0 P fun t => by simp only [demoPh]; ring).congr_deriv (by simp only [demoPh]; ring)
  G_T := (quad (a * P - k * P ^ 2 / 2) (c * P) (-1 / 2) T fun t => by simp only [demoPh]; ring).congr_deriv
    (by simp only [demoPh]; ring)
  G_P := (quad (-T ^ 2 / 2) (a + c * T) (-k / 2) P fun t => by simp only [demoPh]; ring).congr_deriv
    (by simp only [demoPh]; ring)
  U_T := (quad (k * P ^ 2 / 2) (-(c * P)) (1 / 2) T fun t => by simp only [demoPh]; ring).congr_deriv
    (by simp only [demoPh]; ring)
  U_P := (quad (T ^ 2 / 2) (-(c * T)) (k / 2) P fun t => by simp only [demoPh]; ring).congr_deriv
    (by simp only [demoPh]; ring)
  A_T := (quad (k * P ^ 2 / 2) 0 (-1 / 2) T fun t => by simp only [demoPh]; ring).congr_deriv
    (by simp only [demoPh]; ring)
  A_P := (quad (-T ^ 2 / 2) 0 (k / 2) P fun t => by simp only [demoPh]; ring).congr_deriv
    (by simp only [demoPh]; ring)
  V_T := (quad (a - k * P) c 0 T fun t => by simp only [demoPh]; ring).congr_deriv
    (by simp only [demoPh]; field_simp; ring)
  V_P := (quad (a + c * T) (-k) 0 P fun t => by simp only [demoPh]; ring).congr_deriv
    (by simp only [demoPh]; field_simp; ring)
  V_pos := hV
  stable := div_neg_of_neg_of_pos (by norm_num) hk
  kappa_eq := by simp only [demoPh]; field_simp
  expansion_eq := by simp only [demoPh]; field_simp
  Maxwell := by simp only [demoPh]; field_simp

/-- Two phases in equal amounts. -/
noncomputable def demoBulk : Bk := [(1 / 2, demoPh 3 1 1), (1 / 2, demoPh 4 2 2)]

theorem demoBulk_ok : demoBulk.Ok 1 1 := by
  intro x hx
  simp only [demoBulk, List.mem_cons, List.not_mem_nil, or_false] at hx
  rcases hx with rfl | rfl
  · exact ⟨by norm_num, demoPh_ok (by norm_num) (by norm_num)⟩
  · exact ⟨by norm_num, demoPh_ok (by norm_num) (by norm_num)⟩

/-- **C68.** The remaining derivatives of the bulk are *not* those of the bulk with frozen phases, with the default
settings: for some two-phase bulk, `dV_dT` and `dV_dP` (computed from the mole-weighted pressure derivatives) are
not derivatives of the bulk volume, the mole-weighted `kappa` and `isobaric_expansion` are not the relative
derivatives of the bulk volume, and the Maxwell relation between the bulk's `dS_dP` and `dV_dT` fails. -/
theorem C68_default_derivatives_fails : ∃ (b : Bk) (T P : ℝ), b.Ok T P ∧ (b.map Prod.fst).sum = 1 ∧
    ¬ HasDerivAt (fun t => b.V t P) (b.dV_dT T P) T ∧ ¬ HasDerivAt (fun q => b.V T q) (b.dV_dP T P) P ∧
    ¬ HasDerivAt (fun q => b.V T q) (-(b.kappaMole T P * b.V T P)) P ∧
    ¬ HasDerivAt (fun t => b.V t P) (b.expansionMole T P * b.V T P) T ∧
    b.dS_dP T P ≠ -b.dV_dT T P := by
  have hT := (frozen_volume demoBulk_ok).1
  have hP := (frozen_volume demoBulk_ok).2
  refine ⟨demoBulk, 1, 1, demoBulk_ok, by norm_num [demoBulk], fun h => ?_, fun h => ?_, fun h => ?_, fun h => ?_, ?_⟩
  · have := h.unique hT
    norm_num [Bk.dV_dT, Bk.dP_dT, Bk.dP_dV, demoBulk, demoPh] at this
  · have := h.unique hP
    norm_num [Bk.dV_dP, Bk.dV_dT, Bk.dP_dT, Bk.dP_dV, demoBulk, demoPh] at this
  · have := h.unique hP
    norm_num [Bk.kappaMole, Bk.V, demoBulk, demoPh] at this
  · have := h.unique hT
    norm_num [Bk.expansionMole, Bk.V, demoBulk, demoPh] at this
  · norm_num [Bk.dS_dP, Bk.dV_dT, Bk.dP_dT, Bk.dP_dV, demoBulk, demoPh]

example : demoBulk.G 1 1 = 15 / 4 := by
  norm_num [Bk.G, Bk.H, Bk.S, demoBulk, demoPh]

example : HasDerivAt (fun t => demoBulk.H t 1) (demoBulk.Cp 1 1) 1 ∧ demoBulk.Cp 1 1 = 1 :=
  ⟨(C68_derivatives demoBulk_ok).1, by norm_num [Bk.Cp, demoBulk, demoPh]⟩

example : HasDerivAt (fun q => demoBulk.V 1 q) (-(demoBulk.kappaVolume 1 1 * demoBulk.V 1 1)) 1 ∧
    demoBulk.kappaVolume 1 1 = 3 / 7 :=
  ⟨(C68_volume_weighted (by simp [demoBulk]) demoBulk_ok).1,
    by norm_num [Bk.kappaVolume, Bk.volumeFractions, Bk.V, demoBulk, demoPh]⟩

example : demoBulk.dG_dT 1 1 = -demoBulk.S 1 1 ∧ demoBulk.dG_dP 1 1 = demoBulk.V 1 1 ∧
    HasDerivAt (fun t => demoBulk.V t 1) (-demoBulk.dS_dP 1 1) 1 :=
  C68_gibbs demoBulk_ok (by
    intro x hx
    simp only [demoBulk, List.mem_cons, List.not_mem_nil, or_false] at hx
    rcases hx with rfl | rfl <;> exact ⟨rfl, rfl⟩)

example : demoBulk.dP_dV 1 1 = -3 / 4 ∧ demoBulk.dP_dV 1 1 ≤ 1 / (-3 / 2) :=
  ⟨by norm_num [Bk.dP_dV, demoBulk, demoPh], C68_stiffness (by simp [demoBulk]) demoBulk_ok (by norm_num [demoBulk])
    ((frozen_volume demoBulk_ok).2.congr_deriv (by norm_num [demoBulk, demoPh]))⟩

example : demoBulk.Cv 1 1 = -1 / 3 ∧ demoBulk.Cv 1 1 ≤ demoBulk.Cp 1 1 :=
  ⟨by norm_num [Bk.Cv, Bk.Cp, Bk.dP_dT, Bk.dP_dV, demoBulk, demoPh],
    (C68_Cv_bounds (by simp [demoBulk]) one_pos demoBulk_ok).2⟩

example : Bk.kappaVolume [(1, demoPh 3 1 1)] 1 1 = 1 / 3 :=
  (C68_single (demoPh_ok (a := 3) (c := 1) (k := 1) (T := 1) (P := 1) (by norm_num) (by norm_num))
    (by norm_num [demoPh])).2.2.2.2.1.trans (by norm_num [demoPh])

example : Filter.Tendsto (fun pert => equilibriumDerivative (fun x => x ^ 2) pert 3) (nhdsWithin 0 {0}ᶜ) (nhds 6) :=
  C68_equilibrium_derivative (by norm_num) ((hasDerivAt_pow 2 (3 : ℝ)).congr_deriv (by norm_num))

/-- The isentrope `P = 1 / V`, that is pressure equal to density. -/
example : speedFiroozabadi (1 / 2) (-1 / 4) = speedEquilibrium 1 := by
  have h := C68_speed_of_sound (ν := fun q => 1 / q) (π := id) (P := 2) (dV := -1 / 4) (dP := 1) (by norm_num)
    (by
      have := (hasDerivAt_id (2 : ℝ)).inv two_ne_zero
      simp only [one_div]
      exact this.congr_deriv (by norm_num))
    (hasDerivAt_id _) (Filter.Eventually.of_forall fun q => by simp)
  exact h

end Verif.Equil
