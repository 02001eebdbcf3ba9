import Verif.Phases.CeosPhase
import Verif.Activity.GibbsExcess

/-!
# Fugacities, consistency checks and formation properties (`thermo/phases/phase.py`)

* C65: fugacity derivatives are derivatives, the checks computed from fugacity coefficients return zero for a
  consistent phase, and comparing phases by the reduced criterion is comparing Gibbs energies.
* C66: chemical potentials are partial molar Gibbs energies; formation properties depend on composition only.

Lists of length `N` are functions on `Fin N`. The overflow guards `trunc_exp` and `trunc_log` are not modelled.
-/

namespace Verif.Phase

open Verif.Departure (Total)
open Verif.GibbsExcess (dxsToDns extensive)
open Finset Filter Topology

variable {N : ℕ}

/-! ## Model -/

/-- `phis` (1118-1138). -/
noncomputable def phis (lnphis : Fin N → ℝ) (i : Fin N) : ℝ := Real.exp (lnphis i)

/-- `fugacities` (1008-1030). -/
noncomputable def fugacities (P : ℝ) (zs lnphis : Fin N → ℝ) (i : Fin N) : ℝ := P * zs i * Real.exp (lnphis i)

/-- `lnfugacities` (1032-1057). -/
noncomputable def lnfugacities (P : ℝ) (zs lnphis : Fin N → ℝ) (i : Fin N) : ℝ :=
  Real.log P + Real.log (zs i) + lnphis i

/-- `lnphis_lowest_Gibbs` (1061-1074) from the fugacities. -/
noncomputable def lnphis_lowest_Gibbs (P : ℝ) (zs fs : Fin N → ℝ) (i : Fin N) : ℝ := Real.log (fs i / (zs i * P))

/-- `dphis_dT` (1140-1174), `dphis_dP` (1176-1211). -/
noncomputable def dphis (lnphis dlnphis : Fin N → ℝ) (i : Fin N) : ℝ := dlnphis i * phis lnphis i

/-- `dphis_dzs` (1213-1249). -/
noncomputable def dphis_dzs (lnphis : Fin N → ℝ) (dlnphis : Fin N → Fin N → ℝ) (i j : Fin N) : ℝ :=
  dlnphis i j * phis lnphis i

/-- `dfugacities_dT` (1076-1103). -/
noncomputable def dfugacities_dT (P : ℝ) (zs lnphis dlnphis_dT : Fin N → ℝ) (i : Fin N) : ℝ :=
  P * zs i * dphis lnphis dlnphis_dT i

/-- `dfugacities_dP` (1252-1286). -/
noncomputable def dfugacities_dP (P : ℝ) (zs lnphis dlnphis_dP : Fin N → ℝ) (i : Fin N) : ℝ :=
  zs i * (P * dphis lnphis dlnphis_dP i + phis lnphis i)

/-- `dfugacities_dns` (1288-1326). -/
noncomputable def dfugacities_dns (P : ℝ) (zs lnphis : Fin N → ℝ) (dlnphis_dns : Fin N → Fin N → ℝ) (i j : Fin N) : ℝ :=
  let phi_P := P * phis lnphis i
  let ziPphi := phi_P * zs i
  let m := ziPphi * (dlnphis_dns i j - 1)
  if j = i then m + phi_P else m

/-- `dlnfugacities_dns` (1328-1355). -/
noncomputable def dlnfugacities_dns (P : ℝ) (zs lnphis : Fin N → ℝ) (dlnphis_dns : Fin N → Fin N → ℝ) (i j : Fin N) : ℝ :=
  dfugacities_dns P zs lnphis dlnphis_dns i j * (1 / fugacities P zs lnphis i)

/-- `H_from_phi` (795-818). -/
def H_from_phi (R T H0 : ℝ) (zs dlnphis_dT : Fin N → ℝ) : ℝ := H0 - ∑ i, R * T * T * zs i * dlnphis_dT i

/-- `S_from_phi` (820-844). -/
def S_from_phi (R T S0 : ℝ) (zs lnphis dlnphis_dT : Fin N → ℝ) : ℝ :=
  S0 - ∑ i, zs i * (R * lnphis i + R * T * dlnphis_dT i)

/-- `V_from_phi` (846-867). -/
noncomputable def V_from_phi (R T P : ℝ) (zs dlnphis_dP : Fin N → ℝ) : ℝ :=
  let obj := ∑ i, zs i * dlnphis_dP i
  let Z := P * obj + 1
  Z * R * T / P

/-- `G_dep` of `G_dep_phi_consistency` (689-696), `H_dep` of `H_dep_phi_consistency` (719-726), `S_dep` of
`S_dep_phi_consistency` (751-759). -/
def G_dep_phi (R T : ℝ) (zs lnphis : Fin N → ℝ) : ℝ := (∑ i, zs i * lnphis i) * R * T
@[inherit_doc G_dep_phi] def H_dep_phi (R T : ℝ) (zs dlnphis_dT : Fin N → ℝ) : ℝ :=
  -(∑ i, zs i * dlnphis_dT i) * R * T * T
@[inherit_doc G_dep_phi] def S_dep_phi (R T : ℝ) (zs lnphis dlnphis_dT : Fin N → ℝ) : ℝ :=
  0 - ∑ i, zs i * (R * lnphis i + R * T * dlnphis_dT i)

/-- The value of the six checks (645, 668, 697, 728, 760, 792); `none` is the `ZeroDivisionError`. -/
noncomputable def consistency (num den : ℝ) : Option ℝ := if den = 0 then none else some |1 - num / den|

/-- `G_min_criteria` (869-896). -/
noncomputable def G_min_criteria (R T G_dep : ℝ) (zs : Fin N → ℝ) : ℝ :=
  (∑ i, zs i * Real.log (zs i)) * R * T + G_dep

/-- `dns_to_dn_partials` (external, documented as `∂(nF)/∂n_i = ∂F/∂n_i + F`). -/
def dnsToDnPartials (dns : Fin N → ℝ) (F : ℝ) (i : Fin N) : ℝ := dns i + F

/-- `H_reactive` (2051-2077), `S_reactive` (2079-2105), `G_reactive` (2122). -/
def reactive (X : ℝ) (zs Xfs : Fin N → ℝ) : ℝ := X + ∑ i, zs i * Xfs i
@[inherit_doc reactive] def G_reactive (T H S : ℝ) (zs Hfs Sfs : Fin N → ℝ) : ℝ :=
  reactive H zs Hfs - T * reactive S zs Sfs

/-- `U_reactive` (2140), `A_reactive` (2158). -/
def U_reactive (P V H : ℝ) (zs Hfs : Fin N → ℝ) : ℝ := reactive H zs Hfs - P * V
@[inherit_doc U_reactive] def A_reactive (T P V H S : ℝ) (zs Hfs Sfs : Fin N → ℝ) : ℝ :=
  U_reactive P V H zs Hfs - T * reactive S zs Sfs

/-- `chemical_potential` (2440-2468). -/
def chemical_potential (T H S : ℝ) (zs Hfs Sfs dH_dzs dS_dzs : Fin N → ℝ) : Fin N → ℝ :=
  let dG_reactive_dzs := fun i => Hfs i - T * (Sfs i + dS_dzs i) + dH_dzs i
  let dG_reactive_dns := dxsToDns dG_reactive_dzs zs
  dnsToDnPartials dG_reactive_dns (G_reactive T H S zs Hfs Sfs)

/-- `H_formation_ideal_gas` (2161-2188), `S_formation_ideal_gas` (2190-2217); without numpy (the numpy branch 2183
of the former calls `float` with two arguments and always raises). -/
def formation (zs Xfs : Fin N → ℝ) : ℝ := 0 + ∑ i, zs i * Xfs i

/-- `V_ideal_gas` (3836-3846). -/
noncomputable def V_ideal_gas (R T P : ℝ) : ℝ := R * T / P

/-- `G_formation_ideal_gas` (2236), `U_formation_ideal_gas` (2256), `A_formation_ideal_gas` (2276). -/
def G_formation (Tref : ℝ) (zs Hfs Sfs : Fin N → ℝ) : ℝ := formation zs Hfs - Tref * formation zs Sfs
@[inherit_doc G_formation] noncomputable def U_formation (R Pref T P : ℝ) (zs Hfs : Fin N → ℝ) : ℝ :=
  formation zs Hfs - Pref * V_ideal_gas R T P
@[inherit_doc G_formation] noncomputable def A_formation (R Tref Pref T P : ℝ) (zs Hfs Sfs : Fin N → ℝ) : ℝ :=
  U_formation R Pref T P zs Hfs - Tref * formation zs Sfs

/-! ## C65 -/

/-- **C65.** `dphis_dT`, `dphis_dP` and the fugacity derivatives by temperature and pressure are derivatives. -/
theorem C65_TP (zs : Fin N → ℝ) (lnphi : Fin N → ℝ → ℝ → ℝ) (dT dP : Fin N → ℝ) {T P : ℝ}
    (hT : ∀ i, HasDerivAt (fun t => lnphi i t P) (dT i) T) (hP : ∀ i, HasDerivAt (fun p => lnphi i T p) (dP i) P)
    (i : Fin N) :
    let l := fun i => lnphi i T P
    HasDerivAt (fun t => phis (fun i => lnphi i t P) i) (dphis l dT i) T ∧
    HasDerivAt (fun p => phis (fun i => lnphi i T p) i) (dphis l dP i) P ∧
    HasDerivAt (fun t => P * zs i * Real.exp (lnphi i t P)) (dfugacities_dT P zs l dT i) T ∧
    HasDerivAt (fun p => p * zs i * Real.exp (lnphi i T p)) (dfugacities_dP P zs l dP i) P := by
  refine ⟨?_, ?_, ?_, ?_⟩
  · exact (hT i).exp.congr_deriv (by simp only [dphis, phis]; ring)
  · exact (hP i).exp.congr_deriv (by simp only [dphis, phis]; ring)
  · exact ((hT i).exp.const_mul (P * zs i)).congr_deriv (by simp only [dfugacities_dT, dphis, phis]; ring)
  · have h := ((hasDerivAt_id P).mul_const (zs i)).mul (hP i).exp
    exact h.congr_deriv (by simp only [dfugacities_dP, dphis, phis, id]; ring)

/-- **C65.** Fugacity and log-fugacity derivatives by mole numbers, at one mole of mixture. -/
theorem C65_ns {P : ℝ} (hP : 0 < P) {n : Fin N → ℝ} (hn : ∑ i, n i = 1) (lnphi : Fin N → (Fin N → ℝ) → ℝ)
    (dns : Fin N → Fin N → ℝ) (h : ∀ i j, PD (lnphi i) j n (dns i j)) (i j : Fin N) :
    let l := fun i => lnphi i n
    PD (fun n => P * (n i / ∑ k, n k) * Real.exp (lnphi i n)) j n (dfugacities_dns P n l dns i j) ∧
    PD (fun n => Real.exp (lnphi i n)) j n (dphis_dzs l dns i j) ∧
    (0 < n i → PD (fun n => Real.log (P * (n i / ∑ k, n k) * Real.exp (lnphi i n))) j n
      (dlnfugacities_dns P n l dns i j)) := by
  have hs : PD (fun n : Fin N → ℝ => ∑ i, n i) j n 1 := by
    have := PD.linear (fun _ => (1 : ℝ)) j n
    simpa using this
  have hf : PD (fun n => P * (n i / ∑ k, n k) * Real.exp (lnphi i n)) j n
      (dfugacities_dns P n (fun i => lnphi i n) dns i j) := by
    have k := PD.mul (PD.const_mul P (PD.div (PD.coord i j n) hs (by rw [hn]; norm_num)))
      (PD.comp (Real.hasDerivAt_exp _) (h i j))
    refine k.congr_d ?_
    simp only [dfugacities_dns, phis, hn, eq_comm (a := j) (b := i)]
    split <;> ring
  refine ⟨hf, ?_, fun hi => ?_⟩
  · refine (PD.comp (Real.hasDerivAt_exp _) (h i j)).congr_d ?_
    simp only [dphis_dzs, phis]; ring
  · have hpos : P * (n i / ∑ k, n k) * Real.exp (lnphi i n) ≠ 0 := by
      rw [hn, div_one]; positivity
    refine (PD.comp (Real.hasDerivAt_log hpos) hf).congr_d ?_
    simp only [dlnfugacities_dns, fugacities, hn, div_one, one_div]
    ring

/-- **C65.** The three ways of writing a fugacity agree. -/
theorem C65_ln {P : ℝ} (hP : 0 < P) (zs lnphis : Fin N → ℝ) {i : Fin N} (hz : 0 < zs i) :
    lnfugacities P zs lnphis i = Real.log (fugacities P zs lnphis i) ∧
    lnphis_lowest_Gibbs P zs (fugacities P zs lnphis) i = lnphis i := by
  constructor
  · simp only [lnfugacities, fugacities]
    rw [Real.log_mul (by positivity) (by positivity), Real.log_mul hP.ne' hz.ne', Real.log_exp]
  · simp only [lnphis_lowest_Gibbs, fugacities]
    rw [show P * zs i * Real.exp (lnphis i) / (zs i * P) = Real.exp (lnphis i) by field_simp, Real.log_exp]

/-- **C65.** The matrix of log-fugacity derivatives is singular in the direction of the composition and obeys the
Gibbs-Duhem equation, and is symmetric, whenever the fugacity coefficient derivatives are. -/
theorem C65_gibbs_duhem {P : ℝ} (hP : 0 < P) {n : Fin N → ℝ} (hn : ∑ i, n i = 1) (hpos : ∀ i, 0 < n i)
    (l : Fin N → ℝ) (dns : Fin N → Fin N → ℝ) :
    (∀ i, ∑ j, n j * dns i j = 0 → ∑ j, n j * dlnfugacities_dns P n l dns i j = 0) ∧
    (∀ j, ∑ i, n i * dns i j = 0 → ∑ i, n i * dlnfugacities_dns P n l dns i j = 0) ∧
    (∀ i j, dns i j = dns j i → dlnfugacities_dns P n l dns i j = dlnfugacities_dns P n l dns j i) := by
  have e : ∀ i j, dlnfugacities_dns P n l dns i j = dns i j - 1 + (if i = j then 1 / n i else 0) := by
    intro i j
    have hi := hpos i
    have hx := Real.exp_pos (l i)
    simp only [dlnfugacities_dns, dfugacities_dns, fugacities, phis, eq_comm (a := j) (b := i)]
    split <;> field_simp <;> ring
  simp only [e]
  refine ⟨fun i h => ?_, fun j h => ?_, fun i j h => ?_⟩
  · have : ∀ j, n j * (dns i j - 1 + if i = j then 1 / n i else 0)
        = n j * dns i j - n j + if i = j then 1 else 0 := by
      intro j
      have hi := hpos i
      by_cases hij : i = j
      · subst hij; simp only [if_true]; field_simp
      · simp only [if_neg hij]; ring
    simp only [this, sum_add_distrib, sum_sub_distrib, h, hn]
    simp
  · have : ∀ i, n i * (dns i j - 1 + if i = j then 1 / n i else 0)
        = n i * dns i j - n i + if i = j then 1 else 0 := by
      intro i
      have hi := hpos i
      by_cases hij : i = j
      · subst hij; simp only [if_true]; field_simp
      · simp only [if_neg hij]; ring
    simp only [this, sum_add_distrib, sum_sub_distrib, h, hn]
    simp
  · rw [h]
    by_cases hij : i = j
    · subst hij; rfl
    · rw [if_neg hij, if_neg (Ne.symm hij)]

section
variable {m : Methods} {r : Ref N} {T V : ℝ}

/-- A phase whose Gibbs energy is the ideal gas value plus `R T Σ z ln φ` around the state. -/
structure FromPhi (m : Methods) (r : Ref N) (lnphi : Fin N → ℝ → ℝ → ℝ) (dT dP : Fin N → ℝ) (T V : ℝ) : Prop where
  ok : r.Ok T
  R : m.R = r.R
  posP : 0 < m.P T V
  dif : ∀ i, ∃ a b, Total (lnphi i) a b T V
  T_P : ∀ i, Part (lnphi i) temp m.P (dT i) T V
  P_T : ∀ i, Part (lnphi i) m.P temp (dP i) T V
  gibbs : ∀ᶠ q : ℝ × ℝ in 𝓝 (T, V), m.H q.1 q.2 - q.1 * m.S q.1 q.2
    = r.H q.1 - q.1 * r.S q.1 (m.P q.1 q.2) + r.R * q.1 * ∑ i, r.zs i * lnphi i q.1 q.2

theorem Total.sum {f : Fin N → ℝ → ℝ → ℝ} {a b z : Fin N → ℝ} (h : ∀ i, Total (f i) (a i) (b i) T V) :
    Total (fun T V => ∑ i, z i * f i T V) (∑ i, z i * a i) (∑ i, z i * b i) T V := by
  intro T' V' τ ν h1 h2 h3 h4
  have k := HasDerivAt.fun_sum (u := univ) fun i _ => (h i T' V' τ ν h1 h2 h3 h4).const_mul (z i)
  refine k.congr_deriv ?_
  rw [sum_mul, sum_mul, ← sum_add_distrib]
  exact sum_congr rfl fun i _ => by ring

/-- **C65.** Enthalpy, entropy and volume recomputed from fugacity coefficients and their derivatives are those of the
phase, so all checks return zero (where the reference value is not zero). -/
theorem C65_from_phi {lnphi : Fin N → ℝ → ℝ → ℝ} {dT dP : Fin N → ℝ} (h : Mech m T V) (k : Caloric m T V)
    (c : Consistent m T V) (q : FromPhi m r lnphi dT dP T V) :
    let l := fun i => lnphi i T V
    H_from_phi r.R T (r.H T) r.zs dT = m.H T V ∧
    S_from_phi r.R T (r.S T (m.P T V)) r.zs l dT = m.S T V ∧
    V_from_phi r.R T (m.P T V) r.zs dP = V ∧
    G_dep_phi r.R T r.zs l = m.H T V - r.H T - T * (m.S T V - r.S T (m.P T V)) ∧
    H_dep_phi r.R T r.zs dT = m.H T V - r.H T ∧
    S_dep_phi r.R T r.zs l dT = m.S T V - r.S T (m.P T V) := by
  intro l
  have hT := h.posT; have hP := q.posP; have n1 := h.neT; have n2 := h.neV
  obtain ⟨kH, -, kS⟩ := Consistent.diffs h k c
  choose a b hab using q.dif
  have kg : Total (fun T V => ∑ i, r.zs i * lnphi i T V) (∑ i, r.zs i * a i) (∑ i, r.zs i * b i) T V := Total.sum hab
  have kT := tot_T T V
  have kG := kH.sub (kT.mul kS)
  have kI := ((tot_HI q.ok V).sub (kT.mul (tot_S q.ok h.hP hP))).add (((Total.const r.R T V).mul kT).mul kg)
  have kI' := Total.congr_near (Y := fun T V => m.H T V - temp T V * m.S T V) kI q.gibbs
  have eT := Along.unique (kG 1 0) (kI' 1 0)
  have eV := Along.unique (kG 0 1) (kI' 0 1)
  have e0 := q.gibbs.self_of_nhds
  simp only [temp] at eT eV e0
  -- values of the supplied derivatives
  have xT : ∀ i, dT i * (1 * m.dP_dV T V - 0 * m.dP_dT T V) = a i * m.dP_dV T V - b i * m.dP_dT T V := fun i =>
    (part_iff (hab i) kT h.hP (.inl n1)).1 (q.T_P i)
  have xP : ∀ i, dP i * (m.dP_dT T V * 0 - m.dP_dV T V * 1) = a i * 0 - b i * 1 := fun i =>
    (part_iff (hab i) h.hP kT (.inl one_ne_zero)).1 (q.P_T i)
  have sT : (∑ i, r.zs i * dT i) * m.dP_dV T V
      = (∑ i, r.zs i * a i) * m.dP_dV T V - (∑ i, r.zs i * b i) * m.dP_dT T V := by
    rw [sum_mul, sum_mul, sum_mul, ← sum_sub_distrib]
    exact sum_congr rfl fun i _ => by linear_combination r.zs i * xT i
  have sP : (∑ i, r.zs i * dP i) * m.dP_dV T V = ∑ i, r.zs i * b i := by
    rw [sum_mul]
    exact sum_congr rfl fun i _ => by linear_combination (-r.zs i) * xP i
  have d1 : H_from_phi r.R T (r.H T) r.zs dT = r.H T - r.R * T * T * ∑ i, r.zs i * dT i := by
    simp only [H_from_phi, mul_sum]
    congr 1
    exact sum_congr rfl fun i _ => by ring
  have d2 : ∑ i, r.zs i * (r.R * l i + r.R * T * dT i)
      = r.R * (∑ i, r.zs i * l i) + r.R * T * ∑ i, r.zs i * dT i := by
    simp only [mul_sum, ← sum_add_distrib]
    exact sum_congr rfl fun i _ => by ring
  have d3 : (∑ i, r.zs i * lnphi i T V) = ∑ i, r.zs i * l i := rfl
  rw [d3] at eT e0
  simp only [S_from_phi, V_from_phi, G_dep_phi, H_dep_phi, S_dep_phi]
  rw [d1, d2]
  generalize (∑ i, r.zs i * l i) = g at *
  generalize (∑ i, r.zs i * dT i) = gT at *
  generalize (∑ i, r.zs i * dP i) = gP at *
  generalize (∑ i, r.zs i * a i) = ga at *
  generalize (∑ i, r.zs i * b i) = gb at *
  have hga : ga = gT + gP * m.dP_dT T V := by
    refine mul_right_cancel₀ n2 ?_
    linear_combination -sT - m.dP_dT T V * sP
  have hV : V = r.R * T / m.P T V + r.R * T * gP := by
    refine mul_right_cancel₀ n2 ?_
    linear_combination eV - r.R * T * sP
  have hS : m.S T V = r.S T (m.P T V) - r.R * g - r.R * T * gT := by
    have c1 : T * (m.Cv T V / T) = m.Cv T V := mul_div_cancel₀ _ hT.ne'
    have c2 : T * (r.Cp T / T) = r.Cp T := mul_div_cancel₀ _ hT.ne'
    linear_combination -eT + m.dP_dT T V * hV - r.R * T * hga - c1 + c2
  refine ⟨?_, ?_, ?_, ?_, ?_, ?_⟩
  · linear_combination -e0 - T * hS
  · linear_combination -hS
  · have : m.P T V ≠ 0 := hP.ne'
    field_simp at hV ⊢
    linear_combination -hV
  · linear_combination -e0
  · linear_combination -e0 - T * hS
  · linear_combination -hS

/-- **C65.** The six consistency checks of a consistent phase are zero whenever they do not divide by zero. -/
theorem C65_checks {lnphi : Fin N → ℝ → ℝ → ℝ} {dT dP : Fin N → ℝ} (h : Mech m T V) (k : Caloric m T V)
    (c : Consistent m T V) (q : FromPhi m r lnphi dT dP T V) :
    let l := fun i => lnphi i T V
    let H_dep := m.H T V - r.H T
    let S_dep := m.S T V - r.S T (m.P T V)
    (m.H T V ≠ 0 → consistency (H_from_phi r.R T (r.H T) r.zs dT) (m.H T V) = some 0) ∧
    (m.S T V ≠ 0 → consistency (S_from_phi r.R T (r.S T (m.P T V)) r.zs l dT) (m.S T V) = some 0) ∧
    consistency (V_from_phi r.R T (m.P T V) r.zs dP) V = some 0 ∧
    (H_dep - T * S_dep ≠ 0 → consistency (G_dep_phi r.R T r.zs l) (H_dep - T * S_dep) = some 0) ∧
    (H_dep ≠ 0 → consistency H_dep (H_dep_phi r.R T r.zs dT) = some 0) ∧
    (S_dep ≠ 0 → consistency (S_dep_phi r.R T r.zs l dT) S_dep = some 0) ∧
    (∀ num den e, consistency num den = some e → e = 0 → num = den) := by
  intro l H_dep S_dep
  obtain ⟨e1, e2, e3, e4, e5, e6⟩ := C65_from_phi h k c q
  have self : ∀ x : ℝ, x ≠ 0 → consistency x x = some 0 := by
    intro x hx
    simp [consistency, hx]
  refine ⟨fun hx => ?_, fun hx => ?_, ?_, fun hx => ?_, fun hx => ?_, fun hx => ?_, ?_⟩
  · rw [e1]; exact self _ hx
  · rw [e2]; exact self _ hx
  · rw [e3]; exact self _ h.posV.ne'
  · rw [e4]; exact self _ hx
  · rw [e5]; exact self _ hx
  · rw [e6]; exact self _ hx
  · intro num den e he h0
    unfold consistency at he
    split at he
    · exact absurd he (by simp)
    · rename_i hd
      simp only [Option.some.injEq] at he
      rw [h0, abs_eq_zero] at he
      field_simp at he
      linarith

end

/-- Ideal gas functions of another composition. -/
def Ref.at (r : Ref N) (z : Fin N → ℝ) : Ref N := { r with zs := z }

/-- Gibbs energy of a phase of composition `z` with departure `Gd` (`G`, 1432-1452, with `H` and `S` of
`IdealGasDeparturePhase`). -/
noncomputable def gibbsOf (r : Ref N) (T P : ℝ) (z : Fin N → ℝ) (Gd : ℝ) : ℝ := (r.at z).H T - T * (r.at z).S T P + Gd

/-- **C65.** Comparing splits of the same mixture into phases at the same temperature and pressure by
`G_min_criteria` gives the difference of their Gibbs energies. -/
theorem C65_criteria (r : Ref N) (T P : ℝ) {K K' : ℕ} (β : Fin K → ℝ) (β' : Fin K' → ℝ) (z : Fin K → Fin N → ℝ)
    (z' : Fin K' → Fin N → ℝ) (Gd : Fin K → ℝ) (Gd' : Fin K' → ℝ) (hβ : ∑ k, β k = ∑ k, β' k)
    (hz : ∀ i, ∑ k, β k * z k i = ∑ k, β' k * z' k i) :
    ∑ k, β k * gibbsOf r T P (z k) (Gd k) - ∑ k, β' k * gibbsOf r T P (z' k) (Gd' k)
      = ∑ k, β k * G_min_criteria r.R T (Gd k) (z k) - ∑ k, β' k * G_min_criteria r.R T (Gd' k) (z' k) := by
  have split : ∀ {L : ℕ} (b : Fin L → ℝ) (w : Fin L → Fin N → ℝ) (G : Fin L → ℝ),
      ∑ k, b k * gibbsOf r T P (w k) (G k) = ∑ k, b k * G_min_criteria r.R T (G k) (w k)
        + (∑ k, b k) * (T * r.R * Real.log (P * (1 / r.Pref)))
        + ∑ i, (∑ k, b k * w k i) * (r.HI i T - T * r.SI i T) := by
    intro L b w G
    have e : ∑ i, (∑ k, b k * w k i) * (r.HI i T - T * r.SI i T)
        = ∑ k, b k * ∑ i, w k i * (r.HI i T - T * r.SI i T) := by
      simp only [sum_mul, mul_sum]
      rw [sum_comm]
      exact sum_congr rfl fun k _ => sum_congr rfl fun i _ => by ring
    rw [e, sum_mul, ← sum_add_distrib, ← sum_add_distrib]
    refine sum_congr rfl fun k _ => ?_
    have e2 : ∑ i, w k i * (r.HI i T - T * r.SI i T) = ∑ i, w k i * r.HI i T - T * ∑ i, w k i * r.SI i T := by
      rw [mul_sum, ← sum_sub_distrib]
      exact sum_congr rfl fun i _ => by ring
    rw [e2]
    simp only [gibbsOf, Ref.at, Ref.H, Ref.S, G_min_criteria]
    ring
  rw [split, split, hβ]
  simp only [hz]
  ring

/-! ## C66 -/

/-- **C66.** `chemical_potential` is the derivative of the total Gibbs energy, formation included, by the amount of
the component; the values weighted with the composition add up to the Gibbs energy. -/
theorem C66_chemical_potential (T : ℝ) (H S : (Fin N → ℝ) → ℝ) (Hfs Sfs : Fin N → ℝ) {n : Fin N → ℝ}
    (hn : ∑ i, n i = 1) (hH : DifferentiableAt ℝ H n) (hS : DifferentiableAt ℝ S n) {dH dS : Fin N → ℝ}
    (pH : ∀ i, PD H i n (dH i)) (pS : ∀ i, PD S i n (dS i)) :
    (∀ i, PD (extensive fun z => G_reactive T (H z) (S z) z Hfs Sfs) i n
      (chemical_potential T (H n) (S n) n Hfs Sfs dH dS i)) ∧
    ∑ i, n i * chemical_potential T (H n) (S n) n Hfs Sfs dH dS i = G_reactive T (H n) (S n) n Hfs Sfs := by
  have e : (fun i => n i / ∑ i, n i) = n := by funext i; rw [hn, div_one]
  have lin : ∀ a : Fin N → ℝ, DifferentiableAt ℝ (fun z : Fin N → ℝ => ∑ i, z i * a i) n := by
    intro a; fun_prop
  have hG : DifferentiableAt ℝ (fun z => G_reactive T (H z) (S z) z Hfs Sfs) n := by
    unfold G_reactive reactive
    exact (hH.add (lin Hfs)).sub ((hS.add (lin Sfs)).const_mul T)
  have pG : ∀ i, PD (fun z => G_reactive T (H z) (S z) z Hfs Sfs) i n (Hfs i - T * (Sfs i + dS i) + dH i) := by
    intro i
    unfold G_reactive reactive
    exact (((pH i).add (PD.linear Hfs i n)).sub (((pS i).add (PD.linear Sfs i n)).const_mul T)).congr_d (by ring)
  constructor
  · intro i
    obtain ⟨d, hd, e2, -⟩ := GibbsExcess.C23_gammas (R := 1) (T := T) (n := n) (by rw [hn]; norm_num)
      (by rw [e]; exact hG) (by rw [e]; exact pG) i
    rw [e] at e2
    refine hd.congr_d ?_
    rw [e2]
    simp only [chemical_potential, dnsToDnPartials, dxsToDns, GibbsExcess.dxsToDnPartials]
    ring
  · simp only [chemical_potential, dnsToDnPartials, dxsToDns]
    simp only [mul_add, mul_sub, sum_add_distrib, sum_sub_distrib, ← sum_mul, hn]
    ring

/-- **C66.** When the departure Gibbs energy has the fugacity coefficients as partial molar values (C55), the chemical
potential is a function of temperature plus `R T` times the logarithm of the fugacity: equal chemical potentials are
equal fugacities. -/
theorem C66_fugacity (r : Ref N) {T P : ℝ} (hP : 0 < P) (hPref : 0 < r.Pref) (H S g : (Fin N → ℝ) → ℝ)
    (Hfs Sfs : Fin N → ℝ) {n : Fin N → ℝ} (hn : ∑ i, n i = 1) (hpos : ∀ i, 0 < n i) (hH : DifferentiableAt ℝ H n)
    (hS : DifferentiableAt ℝ S n) {dH dS lnphi : Fin N → ℝ} (pH : ∀ i, PD H i n (dH i)) (pS : ∀ i, PD S i n (dS i))
    (hg : ∀ z, H z - T * S z = gibbsOf r T P z (r.R * T * g z)) (pg : ∀ i, PD (extensive g) i n (lnphi i)) (i : Fin N) :
    chemical_potential T (H n) (S n) n Hfs Sfs dH dS i
      = Hfs i + r.HI i T - T * (Sfs i + r.SI i T) + r.R * T * Real.log (fugacities P n lnphi i / r.Pref) := by
  refine PD.unique ((C66_chemical_potential T H S Hfs Sfs hn hH hS pH pS).1 i) ?_
  have hs : PD (fun n : Fin N → ℝ => ∑ i, n i) i n 1 := by
    have := PD.linear (fun _ => (1 : ℝ)) i n
    simpa using this
  -- the extensive Gibbs energy, written out
  have hlog : PD (fun m : Fin N → ℝ => ∑ k, m k * Real.log (m k / ∑ l, m l)) i n (Real.log (n i)) := by
    have k := PD.sum (s := univ) (F := fun k (m : Fin N → ℝ) => m k * Real.log (m k / ∑ l, m l)) fun k _ =>
      PD.mul (PD.coord k i n) (PD.comp (F := fun m : Fin N → ℝ => m k / ∑ l, m l) (Real.hasDerivAt_log (by
        rw [hn, div_one]; exact (hpos k).ne')) (PD.div (PD.coord k i n) hs (by rw [hn]; norm_num)))
    refine k.congr_d ?_
    have e : ∀ k, (if k = i then (1 : ℝ) else 0) * Real.log (n k / ∑ l, n l)
        + n k * ((n k / ∑ l, n l)⁻¹ * (((if k = i then 1 else 0) * (∑ l, n l) - n k * 1) / (∑ l, n l) ^ 2))
        = (if k = i then Real.log (n i) + 1 else 0) - n k := by
      intro k
      have hk := (hpos k).ne'
      rw [hn]
      by_cases hki : k = i
      · subst hki; simp only [if_true, div_one, mul_one, one_mul, one_pow]; field_simp; ring
      · simp only [if_neg hki, div_one, mul_one, one_pow]; field_simp; ring
    rw [sum_congr rfl fun k _ => e k, sum_sub_distrib, hn]
    simp
  have kk := (((PD.linear (fun k => Hfs k + r.HI k T - T * (Sfs k + r.SI k T)) i n).add
    (hlog.const_mul (r.R * T))).add (hs.mul_const (r.R * T * Real.log (P * (1 / r.Pref))))).add
    ((pg i).const_mul (r.R * T))
  have hev : ∀ᶠ t in 𝓝 (n i), extensive (fun z => G_reactive T (H z) (S z) z Hfs Sfs) (Function.update n i t)
      = (fun m : Fin N → ℝ => ∑ k, m k * (Hfs k + r.HI k T - T * (Sfs k + r.SI k T))
        + r.R * T * (∑ k, m k * Real.log (m k / ∑ l, m l)) + (∑ l, m l) * (r.R * T * Real.log (P * (1 / r.Pref)))
        + r.R * T * extensive g m) (Function.update n i t) := by
    have hc : ContinuousAt (fun t => ∑ l, Function.update n i t l) (n i) := hs.continuousAt
    have hne : ∀ᶠ t in 𝓝 (n i), (∑ l, Function.update n i t l) ≠ 0 := by
      refine hc.eventually_ne ?_
      rw [Function.update_eq_self, hn]; norm_num
    filter_upwards [hne] with t ht
    generalize Function.update n i t = m at ht
    have sc : ∀ a : Fin N → ℝ, (∑ l, m l) * ∑ k, m k / (∑ l, m l) * a k = ∑ k, m k * a k := by
      intro a
      rw [mul_sum]
      exact sum_congr rfl fun k _ => by field_simp
    have h1 := hg fun k => m k / ∑ l, m l
    simp only [gibbsOf, Ref.at, Ref.H, Ref.S] at h1
    have s1 := sc Hfs
    have s2 := sc Sfs
    have s3 := sc fun k => r.HI k T
    have s4 := sc fun k => r.SI k T
    have s5 := sc fun k => Real.log (m k / ∑ l, m l)
    have e : ∑ k, m k * (Hfs k + r.HI k T - T * (Sfs k + r.SI k T))
        = ∑ k, m k * Hfs k + ∑ k, m k * r.HI k T - T * ∑ k, m k * Sfs k - T * ∑ k, m k * r.SI k T := by
      simp only [mul_sum, ← sum_add_distrib, ← sum_sub_distrib]
      exact sum_congr rfl fun k _ => by ring
    simp only [extensive, G_reactive, reactive]
    rw [e]
    linear_combination (∑ l, m l) * h1 + s1 - T * s2 + s3 - T * s4 + r.R * T * s5
  unfold PD at kk ⊢
  refine (kk.congr_of_eventuallyEq hev).congr_deriv ?_
  simp only [fugacities]
  have hi := hpos i
  have hQ : 0 < P * (1 / r.Pref) := by positivity
  rw [show P * n i * Real.exp (lnphi i) / r.Pref = n i * (P * (1 / r.Pref)) * Real.exp (lnphi i) by ring]
  generalize P * (1 / r.Pref) = Q at *
  rw [Real.log_mul (by positivity) (by positivity), Real.log_mul (by positivity) (by positivity), Real.log_exp]
  ring

/-- **C66.** Formation and reactive properties: Gibbs and Helmholtz energies differ by `PV`, formation enthalpy and
entropy are the composition averages, and at the reference state the formation internal energy is `Hf - R Tref`. -/
theorem C66_formation (R Tref Pref T P V H S : ℝ) (hP : Pref ≠ 0) (zs Hfs Sfs : Fin N → ℝ) :
    A_reactive T P V H S zs Hfs Sfs = G_reactive T H S zs Hfs Sfs - P * V ∧
    U_reactive P V H zs Hfs = H + formation zs Hfs - P * V ∧
    formation zs Hfs = ∑ i, zs i * Hfs i ∧
    G_formation Tref zs Hfs Sfs = ∑ i, zs i * (Hfs i - Tref * Sfs i) ∧
    U_formation R Pref Tref Pref zs Hfs = formation zs Hfs - R * Tref ∧
    A_formation R Tref Pref Tref Pref zs Hfs Sfs = G_formation Tref zs Hfs Sfs - R * Tref := by
  have e : ∑ i, zs i * (Hfs i - Tref * Sfs i) = ∑ i, zs i * Hfs i - Tref * ∑ i, zs i * Sfs i := by
    rw [mul_sum, ← sum_sub_distrib]
    exact sum_congr rfl fun i _ => by ring
  refine ⟨?_, ?_, ?_, ?_, ?_, ?_⟩
  · simp only [A_reactive, U_reactive, G_reactive]; ring
  · simp only [U_reactive, reactive, formation]; ring
  · simp only [formation, zero_add]
  · rw [e]; simp only [G_formation, formation, zero_add]
  · simp only [U_formation, V_ideal_gas]; field_simp
  · simp only [A_formation, U_formation, G_formation, V_ideal_gas]; field_simp; ring

/-- **C66 fails.** The formation internal energy and Helmholtz energy are not properties of the composition: they change
with the temperature of the phase (the code uses the ideal gas volume of the current state, 2256). -/
theorem C66_formation_fails {R Tref Pref P T T' : ℝ} (hR : 0 < R) (hPref : 0 < Pref) (hP : 0 < P) (hT : T < T')
    (zs Hfs Sfs : Fin N → ℝ) :
    U_formation R Pref T' P zs Hfs < U_formation R Pref T P zs Hfs ∧
    A_formation R Tref Pref T' P zs Hfs Sfs < A_formation R Tref Pref T P zs Hfs Sfs := by
  have : Pref * (R * T / P) < Pref * (R * T' / P) := by
    have : R * T < R * T' := mul_lt_mul_of_pos_left hT hR
    have := div_lt_div_of_pos_right this hP
    exact mul_lt_mul_of_pos_left this hPref
  simp only [A_formation, U_formation, V_ideal_gas]
  constructor <;> linarith

/-! ## Examples -/

example := C65_TP (N := 2) (T := 300) (P := 1000) ![1 / 4, 3 / 4] (fun _ T P => P / T)
  (fun _ => -1000 / 300 ^ 2) (fun _ => 1 / 300)
  (fun _ => by
    have := (hasDerivAt_const (300 : ℝ) (1000 : ℝ)).div (hasDerivAt_id (300 : ℝ)) (by norm_num)
    exact this.congr_deriv (by norm_num))
  (fun _ => (hasDerivAt_id (1000 : ℝ)).div_const 300) 0

example (i j : Fin 2) := C65_ns (P := 1000) (by norm_num) (n := ![1 / 4, 3 / 4])
  (by simp [Fin.sum_univ_two]; norm_num) (fun _ x => x 0 * x 1) _ (fun _ j => GibbsExcess.demo_pd _ j) i j

example (i : Fin 2) := C65_ln (P := 1000) (by norm_num) ![1 / 4, 3 / 4] ![-1 / 10, 2] (i := i)
  (by fin_cases i <;> norm_num)

/-- Fugacity coefficient derivatives of a symmetric regular solution. -/
example := (C65_gibbs_duhem (P := 1000) (by norm_num) (n := ![1 / 4, 3 / 4]) (by simp [Fin.sum_univ_two]; norm_num)
  (by intro i; fin_cases i <;> norm_num) ![0, 0] ![![3, -1], ![-1, 1 / 3]]).1 0
  (by simp [Fin.sum_univ_two]; norm_num)

/-- A cubic equation of state with one component. -/
theorem demo_fromPhi : ∃ dT dP, FromPhi demoCeos.phase demoCeos.r
    (fun _ T V => (Departure.Hd Departure.demo T V - T * Departure.Sd Departure.demo T V) / T) dT dP 1 3 := by
  have hok := demoCeos_ok
  have m := ceos_mech hok
  have kT := tot_T 1 3
  have hl := ((Departure.total_Hd Departure.demo_state).sub
    ((Total.fst 1 3).mul (Departure.total_Sd Departure.demo_state))).div (Total.fst 1 3) one_ne_zero
  have n2 := m.neV
  obtain ⟨a, b, hl⟩ : ∃ a b, Total (fun T V => (Departure.Hd Departure.demo T V - T * Departure.Sd Departure.demo T V) / T)
    a b 1 3 := ⟨_, _, hl⟩
  refine ⟨fun _ => (a * demoCeos.phase.dP_dV 1 3 - b * demoCeos.phase.dP_dT 1 3) / demoCeos.phase.dP_dV 1 3,
    fun _ => b / demoCeos.phase.dP_dV 1 3, hok.ref, rfl, hok.state.posP, fun _ => ⟨a, b, hl⟩, fun _ => ?_, fun _ => ?_, ?_⟩
  · refine (part_iff hl kT m.hP (.inl m.neT)).2 ?_
    field_simp; ring
  · refine (part_iff hl m.hP kT (.inl one_ne_zero)).2 ?_
    field_simp; ring
  · have hc : ContinuousAt (fun q : ℝ × ℝ => q.1) (1, 3) := continuousAt_fst
    filter_upwards [hc.eventually_ne (show (1 : ℝ) ≠ 0 by norm_num)] with q hq
    simp only [demoCeos, Ceos.phase, Ref.S, Ref.H, Fin.sum_univ_one]
    simp
    field_simp
    ring

example : ∃ dT dP, H_from_phi demoCeos.r.R 1 (demoCeos.r.H 1) demoCeos.r.zs dT = demoCeos.phase.H 1 3 ∧
    V_from_phi demoCeos.r.R 1 (demoCeos.phase.P 1 3) demoCeos.r.zs dP = 3 := by
  obtain ⟨dT, dP, h⟩ := demo_fromPhi
  obtain ⟨a, b, c, -⟩ := C64_promises demoCeos_ok
  obtain ⟨x, -, y, -⟩ := C65_from_phi a b c h
  exact ⟨dT, dP, x, y⟩

example := C65_criteria demoRef 300 100000 ![1 / 2, 1 / 2] ![1] ![![0, 1], ![1 / 2, 1 / 2]] ![![1 / 4, 3 / 4]]
  ![-3, -4] ![-2] (by simp [Fin.sum_univ_two]; norm_num) (by
    intro i
    fin_cases i <;> simp [Fin.sum_univ_two] <;> norm_num)

example := C66_chemical_potential (N := 2) 300 (fun x => x 0 * x 1) (fun x => x 0 * x 1) ![1, 2] ![3, 4]
  (n := ![1 / 4, 3 / 4]) (by simp [Fin.sum_univ_two]; norm_num) (GibbsExcess.demo_diff _) (GibbsExcess.demo_diff _)
  (GibbsExcess.demo_pd _) (GibbsExcess.demo_pd _)

/-- An ideal gas: the Gibbs energy as the enthalpy function, zero entropy. -/
example (i : Fin 2) : ∃ dH, chemical_potential 300 (gibbsOf demoRef 300 7 ![1 / 4, 3 / 4] 0) 0 ![1 / 4, 3 / 4] ![1, 2]
    ![3, 4] dH (fun _ => 0) i = ![1, 2] i + demoRef.HI i 300 - 300 * (![3, 4] i + demoRef.SI i 300)
      + demoRef.R * 300 * Real.log (fugacities 7 ![1 / 4, 3 / 4] (fun _ => 0) i / demoRef.Pref) := by
  have hd : DifferentiableAt ℝ (fun z : Fin 2 → ℝ => gibbsOf demoRef 300 7 z 0) ![1 / 4, 3 / 4] := by
    have hl : ∀ i : Fin 2, DifferentiableAt ℝ (fun z : Fin 2 → ℝ => z i * Real.log (z i)) ![1 / 4, 3 / 4] := fun i =>
      (differentiableAt_apply i _).mul ((differentiableAt_apply i _).log (by fin_cases i <;> norm_num))
    simp only [gibbsOf, Ref.at, Ref.H, Ref.S, Fin.sum_univ_two]
    have h0 := hl 0; have h1 := hl 1
    fun_prop
  refine ⟨_, C66_fugacity demoRef (T := 300) (P := 7) (by norm_num) (by norm_num [demoRef])
    (fun z => gibbsOf demoRef 300 7 z 0) (fun _ => 0) (fun _ => 0) ![1, 2] ![3, 4] (n := ![1 / 4, 3 / 4])
    (by simp [Fin.sum_univ_two]; norm_num) (by intro i; fin_cases i <;> norm_num) hd (differentiableAt_const 0)
    (fun j => pd_of_differentiable hd j) (fun j => PD.const 0) (by intro z; simp) (lnphi := fun _ => 0) (fun j => ?_) i⟩
  have : extensive (fun _ : Fin 2 → ℝ => (0 : ℝ)) = fun _ => 0 := by funext z; simp [extensive]
  rw [this]
  exact PD.const 0

example := C66_formation_fails (N := 2) (R := 8) (Tref := 298) (Pref := 100000) (P := 7) (T := 300) (T' := 310)
  (by norm_num) (by norm_num) (by norm_num) (by norm_num) ![1 / 4, 3 / 4] ![1, 2] ![3, 4]

end Verif.Phase
