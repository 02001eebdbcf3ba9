import Verif.Eos.Saturation

/-!
# C105: specifications of an equation of state object and states derived from it

`thermo/eos.py`: `GCEOS.state_specs` (971-990), `__repr__` (1014-1019), `check_sufficient_inputs` (1094-1101), `solve`
(1112-1157), `to_TP`, `to_TV`, `to_PV`, `to` (3644-3761), `more_stable_phase` (3831-3841), `a_alpha_for_V` (3538-3545),
`a_alpha_for_Psat` (3579-3602), `dH_dep_dT_sat_l/g`, `dS_dep_dT_sat_l/g` (3418-3503).

An object is its temperature, pressure, specified volume, the flag `no_T_spec` and the list of volumes handed to
`set_from_PT` (whose choice among them is C29). The attraction, the temperature solver and the volume solver of the
class are parameters. `solve_T` sets `no_T_spec` in every class (1655, 7291, 7732, 8683, 8948, 9271, 9621/1655, 10011,
10698). The mpmath evaluation of the pressure is the exact one. Not modelled: the secant iteration of
`a_alpha_for_Psat` around its error function.
-/

namespace Verif.ObjectState

open Verif.Cubic Verif.Departure Verif.Saturation

/-- The class and the parameters of the substance. -/
structure Class where
  /-- gas constant -/
  R : ℝ
  /-- covolume -/
  b : ℝ
  /-- linear coefficient -/
  delta : ℝ
  /-- constant coefficient -/
  epsilon : ℝ
  /-- attraction by temperature -/
  a_alpha : ℝ → ℝ
  /-- `solve_T(P, V)` -/
  solve_T : ℝ → ℝ → ℝ
  /-- `volume_solutions` by temperature and pressure -/
  volume_solutions : ℝ → ℝ → List ℂ

/-- A solved object. -/
structure Obj where
  /-- `T` -/
  T : ℝ
  /-- `P` -/
  P : ℝ
  /-- `V`, present only if it was specified -/
  V : Option ℝ
  /-- `no_T_spec` -/
  noT : Bool
  /-- the volumes handed to `set_from_PT` -/
  Vs : List ℂ

/-- The exceptions of the constructor. -/
inductive Err where
  | insufficient | twoSpecs | negative
  deriving DecidableEq

/-- `check_sufficient_inputs` (1098-1100). -/
def sufficient (T P V : Option ℝ) : Bool := (T.isSome && P.isSome) || (T.isSome && V.isSome) || (P.isSome && V.isSome)

/-- `solve` (1112-1157). -/
noncomputable def solve (m : Class) : Option ℝ → Option ℝ → Option ℝ → Except Err Obj
  | _, some P, some V => .ok ⟨m.solve_T P V, P, some V, true, [(V : ℂ), Complex.I, Complex.I]⟩
  | some T, none, some V =>
    let P := m.R * T / (V - m.b) - m.a_alpha T / (V * V + m.delta * V + m.epsilon)
    if P ≤ 0 then .error .negative else .ok ⟨T, P, some V, false, [(V : ℂ), Complex.I, Complex.I]⟩
  | none, none, some _ => .error .twoSpecs
  | some T, some P, none => .ok ⟨T, P, none, false, m.volume_solutions T P⟩
  | _, _, none => .error .twoSpecs

/-- The constructor of a class: `check_sufficient_inputs`, then `solve`. -/
noncomputable def make (m : Class) (T P V : Option ℝ) : Except Err Obj :=
  if sufficient T P V then solve m T P V else .error .insufficient

/-- `state_specs` (980-990), also the last part of `__repr__` (1014-1019): the keyword arguments. -/
def specs (o : Obj) : Option ℝ × Option ℝ × Option ℝ :=
  if o.noT then (none, some o.P, o.V)
  else if o.V.isSome then (some o.T, none, o.V)
  else (some o.T, some o.P, none)

/-- `to_TP` (3644-3647). -/
noncomputable def toTP (m : Class) (o : Obj) (T P : ℝ) : Except Err Obj :=
  open Classical in if T ≠ o.T ∨ P ≠ o.P then make m (some T) (some P) none else .ok o

/-- `to_TV` (3678-3683). -/
noncomputable def toTV (m : Class) (o : Obj) (T V : ℝ) : Except Err Obj :=
  open Classical in if T ≠ o.T ∨ some V ≠ o.V then make m (some T) none (some V) else .ok o

/-- `to_PV` (3714-3717). -/
noncomputable def toPV (m : Class) (o : Obj) (P V : ℝ) : Except Err Obj :=
  open Classical in if P ≠ o.P ∨ some V ≠ o.V then make m none (some P) (some V) else .ok o

/-- `to` (3753-3761). -/
noncomputable def toState (m : Class) (o : Obj) : Option ℝ → Option ℝ → Option ℝ → Except Err Obj
  | some T, some P, _ => toTP m o T P
  | some T, none, some V => toTV m o T V
  | none, some P, some V => toPV m o P V
  | T, P, V => make m T P V

/-- `solve_T` does its job for volumes above the covolume and positive pressures. -/
def Solves (m : Class) : Prop :=
  ∀ P V, m.b < V → 0 < P → pressure m.R (m.solve_T P V) m.b m.delta m.epsilon (m.a_alpha (m.solve_T P V)) V = P

/-- `volume_solutions` does its job: at a real volume it returns, the equation gives the pressure. -/
def Sound (m : Class) : Prop :=
  ∀ T P, ∀ v : ℝ, (v : ℂ) ∈ m.volume_solutions T P → pressure m.R T m.b m.delta m.epsilon (m.a_alpha T) v = P

/-- **C105.** The constructor succeeds on any two of the three specifications except where temperature and volume give no
positive pressure, keeps them, and a specified volume satisfies the equation of state. -/
theorem C105_make (m : Class) (hs : Solves m) (T P V : ℝ) (hV : m.b < V) (hP : 0 < P) :
    (∃ o, make m (some T) (some P) none = .ok o ∧ o.T = T ∧ o.P = P ∧ o.V = none ∧ o.Vs = m.volume_solutions T P) ∧
    (∃ o, make m none (some P) (some V) = .ok o ∧ o.P = P ∧ o.V = some V ∧ o.Vs = [(V : ℂ), Complex.I, Complex.I]
      ∧ pressure m.R o.T m.b m.delta m.epsilon (m.a_alpha o.T) V = P) ∧
    (0 < pressure m.R T m.b m.delta m.epsilon (m.a_alpha T) V → ∃ o, make m (some T) none (some V) = .ok o ∧ o.T = T
      ∧ o.V = some V ∧ o.Vs = [(V : ℂ), Complex.I, Complex.I]
      ∧ pressure m.R T m.b m.delta m.epsilon (m.a_alpha T) V = o.P) ∧
    (pressure m.R T m.b m.delta m.epsilon (m.a_alpha T) V ≤ 0 → make m (some T) none (some V) = .error .negative) := by
  have e : m.R * T / (V - m.b) - m.a_alpha T / (V * V + m.delta * V + m.epsilon)
      = pressure m.R T m.b m.delta m.epsilon (m.a_alpha T) V := by unfold pressure; rw [sq]
  refine ⟨⟨_, rfl, rfl, rfl, rfl, rfl⟩, ⟨_, rfl, rfl, rfl, rfl, hs P V hV hP⟩, fun h => ?_, fun h => ?_⟩
  · refine ⟨⟨T, pressure m.R T m.b m.delta m.epsilon (m.a_alpha T) V, some V, false, [(V : ℂ), Complex.I, Complex.I]⟩,
      ?_, rfl, rfl, rfl, rfl⟩
    show (if m.R * T / (V - m.b) - _ ≤ 0 then _ else _) = _
    simp only [e, if_neg (not_le.2 h)]
  · show (if m.R * T / (V - m.b) - _ ≤ 0 then _ else _) = _
    simp only [e, if_pos h]

/-- **C105.** Fewer than two specifications are refused. -/
theorem C105_insufficient (m : Class) (T P V : Option ℝ) (o : Obj) :
    make m none none V = .error .insufficient ∧ make m none P none = .error .insufficient
    ∧ make m T none none = .error .insufficient
    ∧ toState m o none none V = .error .insufficient ∧ toState m o none P none = .error .insufficient
    ∧ toState m o T none none = .error .insufficient := by
  refine ⟨?_, ?_, ?_, ?_, ?_, ?_⟩ <;> cases T <;> cases P <;> cases V <;> rfl

/-- **C105.** The specifications reported by an object (and shown by its `repr`) recreate it. -/
theorem C105_specs (m : Class) (T P V : Option ℝ) (o : Obj) (h : make m T P V = .ok o) :
    make m (specs o).1 (specs o).2.1 (specs o).2.2 = .ok o := by
  have key : ∀ T V : ℝ, solve m (some T) none (some V) = .ok o → make m (specs o).1 (specs o).2.1 (specs o).2.2 = .ok o := by
    intro T V h
    have h' := h
    simp only [solve] at h
    split_ifs at h with hp
    cases h
    exact h'
  rcases T with _ | T <;> rcases P with _ | P <;> rcases V with _ | V
  · cases h
  · cases h
  · cases h
  · cases h; rfl
  · cases h
  · exact key T V h
  · cases h; rfl
  · cases h; rfl

/-- A van der Waals fluid (`R = 1`, `b = 1`, `a = 36`). -/
noncomputable def vdw : Class where
  R := 1
  b := 1
  delta := 0
  epsilon := 0
  a_alpha := fun _ => 36
  solve_T := fun P V => (P + 36 / V ^ 2) * (V - 1)
  volume_solutions := fun T P => open Classical in if T = 10 ∧ P = 1 then [2, 3, 6] else []

theorem vdw_solves : Solves vdw := by
  intro P V hV _
  simp only [vdw] at hV
  have h1 : V - 1 ≠ 0 := by linarith
  have h2 : V ≠ 0 := by linarith
  simp only [vdw, pressure]
  field_simp
  ring

theorem vdw_mem (v : ℝ) : (v : ℂ) ∈ vdw.volume_solutions 10 1 ↔ v = 2 ∨ v = 3 ∨ v = 6 := by
  simp only [vdw, and_self, if_true, List.mem_cons, List.not_mem_nil, or_false]
  norm_cast

theorem vdw_sound : Sound vdw := by
  intro T P v hv
  by_cases h : T = 10 ∧ P = 1
  · obtain ⟨rfl, rfl⟩ := h
    rcases (vdw_mem v).1 hv with rfl | rfl | rfl <;> norm_num [vdw, pressure]
  · simp [vdw, h] at hv

example : ∃ o, make vdw (some 10) none (some 3) = .ok o ∧ o.T = 10 ∧ o.V = some 3 ∧ o.Vs = [3, Complex.I, Complex.I]
    ∧ o.P = 1 := by
  obtain ⟨-, -, h, -⟩ := C105_make vdw vdw_solves 10 1 3 (by norm_num [vdw]) one_pos
  obtain ⟨o, h1, h2, h3, h4, h5⟩ := h (by norm_num [vdw, pressure])
  refine ⟨o, h1, h2, h3, by simpa using h4, ?_⟩
  rw [← h5]; norm_num [vdw, pressure]

example : ∃ o, make vdw none (some 1) (some 3) = .ok o ∧ specs o = (none, some 1, some 3)
    ∧ make vdw (specs o).1 (specs o).2.1 (specs o).2.2 = .ok o :=
  ⟨_, rfl, rfl, C105_specs vdw none (some 1) (some 3) _ rfl⟩

/-- A state with no positive pressure: 36/4 exceeds 5. -/
example : make vdw (some 5) none (some 2) = .error .negative :=
  (C105_make vdw vdw_solves 5 1 2 (by norm_num [vdw]) one_pos).2.2.2 (by norm_num [vdw, pressure])

/-- **C105.** With all three given, the constructor replaces the temperature by the one that follows from pressure and volume, while
`to` ignores the volume: the same keyword arguments give different states. -/
theorem C105_three_specs_fails : ∃ m : Class, Solves m ∧ Sound m ∧ ∃ T P V : ℝ,
    (∃ o, make m (some T) (some P) (some V) = .ok o ∧ o.T ≠ T ∧ o.P = P ∧ o.V = some V) ∧
    ∃ o o', make m (some T) (some P) none = .ok o ∧ toState m o (some T) (some P) (some V) = .ok o'
      ∧ o'.T = T ∧ o'.P = P ∧ o'.V = none ∧ (V : ℂ) ∉ o'.Vs := by
  refine ⟨vdw, vdw_solves, vdw_sound, 10, 1, 4, ⟨_, rfl, by norm_num [vdw], rfl, rfl⟩,
    ⟨10, 1, none, false, vdw.volume_solutions 10 1⟩, ⟨10, 1, none, false, vdw.volume_solutions 10 1⟩, rfl, ?_, rfl, rfl, rfl, ?_⟩
  · simp [toState, toTP]
  · intro h
    have := (vdw_mem 4).1 h
    norm_num at this

/-- **C105.** `to_TP`, `to_TV`, `to_PV` and `to` with two arguments return a state with the requested values, if the constructor does. -/
theorem C105_to (m : Class) (o o' : Obj) (T P V : ℝ) :
    (toState m o (some T) (some P) none = .ok o' → o'.T = T ∧ o'.P = P) ∧
    (toState m o (some T) none (some V) = .ok o' → o'.T = T ∧ o'.V = some V) ∧
    (toState m o none (some P) (some V) = .ok o' → o'.P = P ∧ o'.V = some V) := by
  refine ⟨fun h => ?_, fun h => ?_, fun h => ?_⟩
  · simp only [toState, toTP] at h
    split_ifs at h with hc
    · cases h; exact ⟨rfl, rfl⟩
    · cases h; push Not at hc; exact ⟨hc.1.symm, hc.2.symm⟩
  · simp only [toState, toTV] at h
    split_ifs at h with hc
    · change solve m (some T) none (some V) = _ at h
      simp only [solve] at h
      split_ifs at h
      cases h; exact ⟨rfl, rfl⟩
    · cases h; push Not at hc; exact ⟨hc.1.symm, hc.2.symm⟩
  · simp only [toState, toPV] at h
    split_ifs at h with hc
    · cases h; exact ⟨rfl, rfl⟩
    · cases h; push Not at hc; exact ⟨hc.1.symm, hc.2.symm⟩

example : ∃ o o', make vdw (some 10) (some 1) none = .ok o ∧ toState vdw o (some 10) none (some 3) = .ok o' ∧ o'.T = 10 ∧ o'.V = some 3 := by
  obtain ⟨o', h⟩ : ∃ o', toState vdw ⟨10, 1, none, false, vdw.volume_solutions 10 1⟩ (some 10) none (some 3) = .ok o' := by
    refine ⟨⟨10, 1, some 3, false, [3, Complex.I, Complex.I]⟩, ?_⟩
    norm_num [toState, toTV, make, solve, sufficient, vdw]
    simp
  exact ⟨⟨10, 1, none, false, vdw.volume_solutions 10 1⟩, o', rfl, h, (C105_to _ _ _ _ 1 _).2.1 h⟩

/-- **C105.** For an object made from temperature and pressure, `to` with two arguments is the same as the constructor. -/
theorem C105_to_fresh (m : Class) (o : Obj) (T₀ P₀ : ℝ) (ho : make m (some T₀) (some P₀) none = .ok o) (T P V : ℝ) :
    toState m o (some T) (some P) none = make m (some T) (some P) none ∧
    toState m o (some T) none (some V) = make m (some T) none (some V) ∧
    toState m o none (some P) (some V) = make m none (some P) (some V) := by
  cases ho
  refine ⟨?_, ?_, ?_⟩
  · simp only [toState, toTP]
    split_ifs with hc
    · rfl
    · push Not at hc
      obtain ⟨rfl, rfl⟩ := hc
      rfl
  · simp [toState, toTV]
  · simp [toState, toPV]

example : ∃ o, make vdw (some 10) (some 1) none = .ok o ∧ toState vdw o (some 10) none (some 3) ≠ .ok o := by
  refine ⟨_, rfl, ?_⟩
  rw [(C105_to_fresh vdw _ 10 1 rfl 10 1 3).2.1]
  obtain ⟨-, -, h, -⟩ := C105_make vdw vdw_solves 10 1 3 (by norm_num [vdw]) one_pos
  obtain ⟨o, h1, -, h3, -⟩ := h (by norm_num [vdw, pressure])
  rw [h1]
  intro h
  cases h
  cases h3

/-- **C105.** `to_TP` of an object made from temperature and volume, at its own temperature and pressure, returns that object with its
one volume, where the constructor would solve for the volumes: here a volume at which the pressure increases with volume (a
state that cannot exist) is kept, and the liquid and the vapour of that temperature and pressure are not found. -/
theorem C105_to_TP_fails : ∃ m : Class, Solves m ∧ Sound m ∧ ∃ T V slope : ℝ, ∃ o o' : Obj,
    make m (some T) none (some V) = .ok o ∧ toTP m o T o.P = .ok o ∧
    HasDerivAt (fun v => pressure m.R T m.b m.delta m.epsilon (m.a_alpha T) v) slope V ∧ 0 < slope ∧
    (∀ v : ℝ, (v : ℂ) ∈ o.Vs → v = V) ∧
    make m (some T) (some o.P) none = .ok o' ∧ ∃ vl vg : ℝ, m.b < vl ∧ vl < V ∧ V < vg ∧ (vl : ℂ) ∈ o'.Vs ∧ (vg : ℂ) ∈ o'.Vs := by
  obtain ⟨-, -, h, -⟩ := C105_make vdw vdw_solves 10 1 3 (by norm_num [vdw]) one_pos
  obtain ⟨o, h1, h2, h3, h4, h5⟩ := h (by norm_num [vdw, pressure])
  have hp : o.P = 1 := by rw [← h5]; norm_num [vdw, pressure]
  refine ⟨vdw, vdw_solves, vdw_sound, 10, 3, 1 / 6, o, ⟨10, 1, none, false, vdw.volume_solutions 10 1⟩, h1, ?_, ?_, by norm_num,
    ?_, ?_, 2, 6, by norm_num [vdw], by norm_num, by norm_num, (vdw_mem 2).2 (by simp), (vdw_mem 6).2 (by simp)⟩
  · simp [toTP, h2]
  · have a1 : HasDerivAt (fun v : ℝ => 10 / (v - 1)) (-(10 / 4)) 3 := by
      refine (((hasDerivAt_const (3 : ℝ) (10 : ℝ)).fun_div ((hasDerivAt_id' (3 : ℝ)).sub_const 1) (by norm_num))).congr_deriv ?_
      norm_num
    have a2 : HasDerivAt (fun v : ℝ => 36 / v ^ 2) (-(72 / 27)) 3 := by
      refine (((hasDerivAt_const (3 : ℝ) (36 : ℝ)).fun_div ((hasDerivAt_id' (3 : ℝ)).fun_pow 2) (by norm_num))).congr_deriv ?_
      norm_num
    have e : (fun v => pressure vdw.R 10 vdw.b vdw.delta vdw.epsilon (vdw.a_alpha 10) v) = fun v : ℝ => 10 / (v - 1) - 36 / v ^ 2 := by
      funext v; simp [vdw, pressure]
    rw [e]
    exact (a1.fun_sub a2).congr_deriv (by norm_num)
  · intro v hv
    rw [h4] at hv
    simp only [List.mem_cons, List.not_mem_nil, or_false] at hv
    rcases hv with hv | hv | hv
    · exact_mod_cast hv
    · have := congrArg Complex.im hv; simp at this
    · have := congrArg Complex.im hv; simp at this
  · rw [hp]; rfl

/-! ### The more stable phase -/

/-- `more_stable_phase` (3831-3841); an absent attribute raises. -/
noncomputable def moreStable (G_l G_g : Option ℝ) : String :=
  match G_l, G_g with
  | some l, some g => open Classical in if l < g then "l" else "g"
  | _, g => if g.isSome then "g" else "l"

/-- **C105.** `more_stable_phase` names a phase the object has, with the least Gibbs energy departure; a tie is called vapour. -/
theorem C105_more_stable (G_l G_g : Option ℝ) (h : G_l.isSome ∨ G_g.isSome) :
    (moreStable G_l G_g = "l" ∨ moreStable G_l G_g = "g") ∧
    (moreStable G_l G_g = "l" → ∃ l, G_l = some l ∧ ∀ g, G_g = some g → l < g) ∧
    (moreStable G_l G_g = "g" → ∃ g, G_g = some g ∧ ∀ l, G_l = some l → g ≤ l) := by
  rcases G_l with _ | l <;> rcases G_g with _ | g
  · simp at h
  · simp [moreStable]
  · simp [moreStable]
  · by_cases hl : l < g <;> simp [moreStable, hl]
    exact not_lt.1 hl

example : moreStable (some (-2)) (some (-1)) = "l" ∧ moreStable (some (-1)) (some (-1)) = "g" ∧ moreStable (some (-1)) none = "l" := by
  norm_num [moreStable]

/-! ### Attraction from a volume or from a vapour pressure -/

/-- `a_alpha_for_V` (3538-3545). -/
noncomputable def aAlphaForV (R T P V b delta epsilon : ℝ) : ℝ :=
  let x0 := P * b
  let x1 := R * T
  let x2 := V * delta
  let x3 := V * V
  let x4 := x3 * V
  (-P * x4 - P * V * epsilon - P * delta * x3 + epsilon * x0 + epsilon * x1 + x0 * x2 + x0 * x3 + x1 * x2 + x1 * x3) / (V - b)

/-- **C105.** `a_alpha_for_V` is the one attraction with which the equation of state gives the pressure at the volume. -/
theorem C105_a_alpha_for_V (R T P V b delta epsilon a : ℝ) (hb : V ≠ b) (hq : V ^ 2 + delta * V + epsilon ≠ 0) :
    pressure R T b delta epsilon a V = P ↔ a = aAlphaForV R T P V b delta epsilon := by
  have h1 : V - b ≠ 0 := sub_ne_zero.2 hb
  have e : aAlphaForV R T P V b delta epsilon = (R * T / (V - b) - P) * (V ^ 2 + delta * V + epsilon) := by
    simp only [aAlphaForV]
    field_simp
    ring
  rw [e, ← div_eq_iff hq]
  unfold pressure
  constructor <;> intro h <;> linarith

example : aAlphaForV 1 10 1 3 1 0 0 = 36 := by norm_num [aAlphaForV]

/-- `fug` inside `a_alpha_for_Psat` (3583-3591). -/
noncomputable def fugSat (R T P b delta epsilon V a : ℝ) : ℝ :=
  let RT := R * T
  let x0 := 1 / √(delta * delta - 4 * epsilon)
  let x1 := delta * x0
  let x2 := 2 * x0
  P * V - RT - RT * Real.log (P * (1 / RT) * (V - b)) - x2 * a * reAtanh (2 * V * x0 + x1)

/-- **C105.** The quantity balanced by `a_alpha_for_Psat` is the departure Gibbs energy: its two values agree exactly if liquid and
vapour of that attraction have the same fugacity coefficient. -/
theorem C105_a_alpha_for_Psat {f : Fluid} {T P V V' : ℝ} (hs : f.Smooth) (hT : 0 < T) (hP : 0 < P) (h : f.Phys V) (h' : f.Phys V') :
    fugSat f.R T P f.b f.delta f.epsilon V (f.a T) = G_dep f T P V ∧
    (fugSat f.R T P f.b f.delta f.epsilon V (f.a T) - fugSat f.R T P f.b f.delta f.epsilon V' (f.a T) = 0 ↔
      Real.exp (eosLnphi f.R T P V f.b f.delta f.epsilon (f.a T)) = Real.exp (eosLnphi f.R T P V' f.b f.delta f.epsilon (f.a T))) := by
  have hR := hs.R
  have key : ∀ V, f.Phys V → fugSat f.R T P f.b f.delta f.epsilon V (f.a T) = G_dep f T P V := by
    intro V h
    have hb : 0 < V - f.b := sub_pos.mpr h.b
    simp only [G_dep, main_H, main_S]
    have e : f.delta * f.delta - 4 * f.epsilon = f.delta ^ 2 - 4 * f.epsilon := by ring
    have ex : 1 / √(f.delta * f.delta - 4 * f.epsilon) = x11of f.delta f.epsilon := by rw [e, x11_eq h.disc]
    simp only [fugSat, ex]
    have e1 : 2 * V * x11of f.delta f.epsilon + f.delta * x11of f.delta f.epsilon
        = x11of f.delta f.epsilon * (V + V + f.delta) := by ring
    have e2 : Real.log (P * (1 / (f.R * T)) * (V - f.b)) = -Real.log (f.R * T * (1 / (V - f.b)) / P) := by
      rw [← Real.log_inv]; congr 1; field_simp
    rw [e1, e2]
    unfold hard
    ring
  refine ⟨key V h, ?_⟩
  rw [key V h, key V' h', Real.exp_eq_exp, C32_lnphi hs hT h hP, C32_lnphi hs hT h' hP, div_left_inj' (by positivity), sub_eq_zero]

example := C105_a_alpha_for_Psat (T := 1) (P := 1) demo_smooth one_pos one_pos demo_phys demo_phys

/-! ### Along the saturation curve -/

/-- `dH_dep_dT_sat_l/g`, `dS_dep_dT_sat_l/g` (3418-3503): the four functions share this expression; `X_P`, `X_T` are the derivatives of
the departure of the phase. -/
noncomputable def depSat (dfg_T dfl_T dfg_P dfl_P X_P X_T : ℝ) : ℝ :=
  let dPsat_dT := (dfg_T - dfl_T) / (dfl_P - dfg_P)
  dPsat_dT * X_P + X_T

/-- **C105.** `dH_dep_dT_sat_l`, `dH_dep_dT_sat_g`, `dS_dep_dT_sat_l`, `dS_dep_dT_sat_g` are the derivatives of the departure enthalpy and
entropy of the saturated liquid and vapour along the saturation curve. -/
theorem C105_sat_departures {f : Fluid} {T : ℝ} {Psat Vl Vg : ℝ → ℝ} {P' Vl' Vg' : ℝ} (h : Coexist f T Psat Vl Vg P' Vl' Vg')
    (hne : Vl T ≠ Vg T) :
    (∀ V ∈ [Vl, Vg], HasDerivAt (fun t => Hd f t (V t)) (depSat (dfT f T (Vg T)) (dfT f T (Vl T)) (dfP f T (Vg T)) (dfP f T (Vl T))
      (dH_dep_dP T (f.p T (V T)) (V T) f.delta f.epsilon (f.a T) (f.a1 T) (V_P f T (V T)))
      (dH_dep_dT f.R T (f.p T (V T)) (V T) f.delta f.epsilon (f.a T) (f.a1 T) (f.a2 T) (V_T f T (V T)))) T) ∧
    (∀ V ∈ [Vl, Vg], HasDerivAt (fun t => Sd f t (V t)) (depSat (dfT f T (Vg T)) (dfT f T (Vl T)) (dfP f T (Vg T)) (dfP f T (Vl T))
      (dS_dep_dP f.R (f.p T (V T)) (V T) f.b f.delta f.epsilon (f.a1 T) (V_P f T (V T)))
      (dS_dep_dT f.R T (V T) f.b f.delta f.epsilon (f.a1 T) (f.a2 T) (V_T f T (V T)))) T) := by
  have hP : (dfT f T (Vg T) - dfT f T (Vl T)) / (dfP f T (Vl T) - dfP f T (Vg T)) = P' := C58_dPsat_polished h hne
  have key : ∀ V : ℝ → ℝ, ∀ V', State f T (V T) → HasDerivAt V V' T → (∀ᶠ t in nhds T, f.p t (V t) = Psat t) →
      ∀ X : ℝ → ℝ → ℝ, ∀ xT xV d1 d2, Total X xT xV T (V T) → Along T (V T) 1 (V_T f T (V T)) X d1 →
      Along T (V T) 0 (V_P f T (V T)) X d2 →
      HasDerivAt (fun t => X t (V t)) (depSat (dfT f T (Vg T)) (dfT f T (Vl T)) (dfP f T (Vg T)) (dfP f T (Vl T)) d2 d1) T := by
    intro V V' hs hV he X xT xV d1 d2 ht h1 h2
    have := along_curve hV (along_split hs ht h1 h2 (curve_slope hs hV h.dP he))
    refine this.congr_deriv ?_
    simp only [depSat, hP]
    ring
  constructor
  · intro V hV
    simp only [List.mem_cons, List.not_mem_nil, or_false] at hV
    rcases hV with rfl | rfl
    · exact key _ _ h.sl h.dVl h.pl _ _ _ _ _ (total_Hd h.sl) (C57_enthalpy h.sl).1 (C57_enthalpy h.sl).2.2.1
    · exact key _ _ h.sg h.dVg h.pg _ _ _ _ _ (total_Hd h.sg) (C57_enthalpy h.sg).1 (C57_enthalpy h.sg).2.2.1
  · intro V hV
    simp only [List.mem_cons, List.not_mem_nil, or_false] at hV
    rcases hV with rfl | rfl
    · exact key _ _ h.sl h.dVl h.pl _ _ _ _ _ (total_Sd h.sl) (C57_entropy h.sl).1 (C57_entropy h.sl).2.2.1
    · exact key _ _ h.sg h.dVg h.pg _ _ _ _ _ (total_Sd h.sg) (C57_entropy h.sg).1 (C57_entropy h.sg).2.2.1

example : ∃ f : Fluid, ∃ P' : ℝ, Coexist f 2 (fun t => P' * t) (fun _ => 1) (fun _ => 2) P' 0 0 ∧
    HasDerivAt (fun t => Hd f t 1) (depSat (dfT f 2 2) (dfT f 2 1) (dfP f 2 2) (dfP f 2 1)
      (dH_dep_dP 2 (f.p 2 1) 1 f.delta f.epsilon (f.a 2) (f.a1 2) (V_P f 2 1))
      (dH_dep_dT f.R 2 (f.p 2 1) 1 f.delta f.epsilon (f.a 2) (f.a1 2) (f.a2 2) (V_T f 2 1))) 2 := by
  obtain ⟨f, P', _, h⟩ := boiling_coexist
  exact ⟨f, P', h, (C105_sat_departures h (by norm_num)).1 (fun _ => 1) (by simp)⟩

end Verif.ObjectState
