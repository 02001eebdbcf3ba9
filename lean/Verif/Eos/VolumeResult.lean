import Verif.Eos.CubicRoots
import Mathlib.Tactic

/-!
# C147: what the volume solvers return

* `volume_solutions_halley` as a whole (`thermo/eos_volume.py` 851-857, 925-995), with its iteration from `Verif.Cubic`;
* `volume_solution_polish` (762-802), `horner_and_der_as_error` (1564-1571), the end of `high_alpha_one_root` (1635-1645);
* `volume_solutions_NR` (517-658) and `volume_solutions_NR_low_P` (694-760).

Numbers are exact; `1.0/x` with `x = 0` raises (`none`). The Newton solver at 1640 leaves the exact root of the closed form in place. Closed forms called by `volume_solutions_NR` and `brenth` are arguments.
-/

namespace Verif.VolumeResult

open Verif.Cubic

/-- The quadratic in the denominator of the attraction. -/
noncomputable def quad (p : Par) (V : ℝ) : ℝ := V * (V + p.delta) + p.epsilon

/-- One Halley step without a test of its denominator (958-974, 977-993); `none`: division by zero. -/
noncomputable def polishStep (p : Par) (V : ℝ) : Option ℝ :=
  open Classical in
  if quad p V = 0 then some V
  else if V - p.b = 0 then none
  else if p.f1 V = 0 then some V
  else
    let step := p.f V * (1 / p.f1 V)
    let den := 1 - 1 / 2 * step * p.f2 V * (1 / p.f1 V)
    if den = 0 then none else some (V - step / den)

/-- The loop of `volume_solution_polish` (768-802) from iteration `j` on, with `n` iterations left; `old`, `oldold`: the last two residuals. -/
noncomputable def polishLoop (p : Par) : ℕ → ℕ → ℝ → ℝ → ℝ → Option ℝ
  | 0, _, V, _, _ => some V
  | n + 1, j, V, old, oldold =>
    open Classical in
    if V - p.b = 0 then none
    else if quad p V = 0 then some V
    else if p.f1 V = 0 then some V
    else
      let fval := p.f V
      let step := fval * (1 / p.f1 V)
      let rel := |fval * (1 / p.P)|
      let den := 1 - 1 / 2 * step * p.f2 V * (1 / p.f1 V)
      if den = 0 then polishLoop p n (j + 1) V old oldold
      else
        if rel < 3 / 10 ^ 15 ∨ old = fval ∨ fval = oldold ∨ (10 < j ∧ rel < 1 / 10 ^ 12) then some (V - step / den)
        else polishLoop p n (j + 1) (V - step / den) fval old

/-- `volume_solution_polish` (762-802). -/
noncomputable def polish (p : Par) (V : ℝ) : Option ℝ := polishLoop p 50 0 V 0 1

/-- The end of `volume_solutions_halley` from its first volume (926-994). -/
noncomputable def tail (p : Par) (V : ℝ) : Option (ℝ × ℝ × ℝ) :=
  open Classical in
  let RT_P := p.R * p.T * (1 / p.P)
  let x := deflate (coefB p.R p.T p.P p.b p.delta) (coefD p.R p.T p.P p.b p.epsilon p.a) (p.P * V / (p.R * p.T))
  if x.1 = 0 then some (V, 0, 0)
  else
    let main0 := p.R * p.T / (V - p.b)
    let main1 := p.a / (V * V + p.delta * V + p.epsilon)
    if main0 + main1 = main0 ∨ (main0 - main1 ≠ 0 ∧ |1 - (main0 + main1) / (main0 - main1)| < 1 / 10 ^ 12) then some (V, 0, 0)
    else
      let V1 := x.1 * RT_P
      let V2 := x.2 * RT_P
      if p.P < 1 / 100 then
        (if x.1 ≠ 1 then polish p V1 else some V1).bind fun V1 => (polish p V2).map fun V2 => (V, V1, V2)
      else (polishStep p V1).bind fun V1 => (polishStep p V2).map fun V2 => (V, V1, V2)

/-- The iterations (880-924) from `j` on with `n` left: the last value of `j` and the volume; `none`: division by a zero slope. -/
noncomputable def hrun (p : Par) : ℕ → ℕ → HState → Option (ℕ × ℝ)
  | 0, j, s => some (j - 1, s.V)
  | n + 1, j, s => match hstep p j s with
    | .error => none
    | .done V => some (j, V)
    | .next s' => hrun p n (j + 1) s'

/-- `high_alpha_one_root` (1589-1645); zero: it gave up. -/
noncomputable def highAlpha (p : Par) : ℝ :=
  open Classical in
  match oneRoot (coefB p.R p.T p.P p.b p.delta) (coefC p.R p.T p.P p.b p.delta p.epsilon p.a) (coefD p.R p.T p.P p.b p.epsilon p.a) with
  | none => 0
  | some x => let V := x * (p.R * p.T / p.P)
    if V = p.b then p.b * (1 + 3 / 10 ^ 16) else V

/-- `volume_solutions_halley` (805-995). -/
noncomputable def solve (p : Par) : Option (ℝ × ℝ × ℝ) :=
  open Classical in
  if p.b * (p.b + p.delta) + p.epsilon = 0 then none
  else if p.a / (p.b * (p.b + p.delta) + p.epsilon) + p.P = p.P then some (p.b + p.R * p.T / p.P, 0, 0)
  else if 10 ^ 4 < p.a ∧ highAlpha p ≠ 0 then some (highAlpha p, 0, 0)
  else if coefC p.R p.T p.P p.b p.delta p.epsilon p.a = 0 then none
  else match hrun p 50 0 (hinit p) with
    | none => none
    | some (j, V) => if j ≠ 49 then tail p V else some (0, 0, 0)

/-! ## Polishing -/

theorem quad_eq (p : Par) (V : ℝ) : quad p V = V ^ 2 + p.delta * V + p.epsilon := by unfold quad; ring

theorem polishStep_exact (p : Par) (V : ℝ) (hb : V ≠ p.b) (h : p.f V = 0) : polishStep p V = some V := by
  unfold polishStep
  split_ifs with h1 h2 h3
  · rfl
  · exact absurd (sub_eq_zero.mp h2) hb
  · rfl
  · simp [h]

theorem polish_exact (p : Par) (V : ℝ) (hb : V ≠ p.b) (h : p.f V = 0) : polish p V = some V := by
  unfold polish
  rw [polishLoop]
  rw [if_neg (sub_ne_zero.mpr hb)]
  by_cases h1 : quad p V = 0
  · rw [if_pos h1]
  rw [if_neg h1]
  by_cases h2 : p.f1 V = 0
  · rw [if_pos h2]
  rw [if_neg h2]
  simp [h]

/-- **C147.** Polishing leaves volumes in place which solve the equation of state exactly, with either method. -/
theorem C147_polish (p : Par) (V : ℝ) (hb : V ≠ p.b) (h : pressure p.R p.T p.b p.delta p.epsilon p.a V = p.P) :
    polishStep p V = some V ∧ polish p V = some V := by
  have hf : p.f V = 0 := by
    have : p.f V = pressure p.R p.T p.b p.delta p.epsilon p.a V - p.P := fval_eq
    linarith
  exact ⟨polishStep_exact p V hb hf, polish_exact p V hb hf⟩

example := C147_polish ⟨1, 1, 1, 1, 0, 0, 0⟩ 2 (by norm_num) (by norm_num [pressure])

theorem halley_den (p : Par) (V : ℝ) (h : 1 - 1 / 2 * (p.f V * (1 / p.f1 V)) * p.f2 V * (1 / p.f1 V) ≠ 0) :
    p.halley V = V - p.f V * (1 / p.f1 V) / (1 - 1 / 2 * (p.f V * (1 / p.f1 V)) * p.f2 V * (1 / p.f1 V)) := by
  simp only [Par.halley]
  rw [if_pos h]

/-- **C147.** An iteration of the polishing loop at a volume off the poles with a step: it ends with the Halley iterate as soon as the residual is below 3e-15 of the pressure, below 1e-12 from the twelfth iteration on, or one of
the last two residuals; otherwise it goes on from the iterate. -/
theorem C147_polish_step (p : Par) (n j : ℕ) (V old oldold : ℝ) (hP : 0 < p.P) (hb : V ≠ p.b) (hq : V ^ 2 + p.delta * V + p.epsilon ≠ 0) (h1 : p.f1 V ≠ 0)
    (hd : 1 - 1 / 2 * (p.f V * (1 / p.f1 V)) * p.f2 V * (1 / p.f1 V) ≠ 0) :
    let err := pressure p.R p.T p.b p.delta p.epsilon p.a V - p.P
    (|err| / p.P < 3 / 10 ^ 15 ∨ err = old ∨ err = oldold ∨ (11 ≤ j ∧ |err| / p.P < 1 / 10 ^ 12) → polishLoop p (n + 1) j V old oldold = some (p.halley V)) ∧
    (¬ (|err| / p.P < 3 / 10 ^ 15 ∨ err = old ∨ err = oldold ∨ (11 ≤ j ∧ |err| / p.P < 1 / 10 ^ 12)) → polishLoop p (n + 1) j V old oldold = polishLoop p n (j + 1) (p.halley V) err old) := by
  intro err
  have hf : p.f V = err := fval_eq
  have hrel : |p.f V * (1 / p.P)| = |err| / p.P := by rw [hf, mul_one_div, abs_div, abs_of_pos hP]
  rw [polishLoop, if_neg (sub_ne_zero.mpr hb), if_neg (by rwa [quad_eq]), if_neg h1]
  dsimp only
  rw [if_neg hd, hrel, halley_den p V hd, hf]
  constructor
  · intro h
    rw [if_pos]
    rcases h with h | h | h | h
    · exact .inl h
    · exact .inr (.inl h.symm)
    · exact .inr (.inr (.inl h))
    · exact .inr (.inr (.inr ⟨by omega, h.2⟩))
  · intro h
    rw [if_neg]
    rintro (h' | h' | h' | h')
    · exact h (.inl h')
    · exact h (.inr (.inl h'.symm))
    · exact h (.inr (.inr (.inl h')))
    · exact h (.inr (.inr (.inr ⟨by omega, h'.2⟩)))

/-- A volume that the first step moves to the root. -/
example : polish ⟨1, 1, 1 / 1000, 1, 0, 0, 0⟩ 2 = polishLoop ⟨1, 1, 1 / 1000, 1, 0, 0, 0⟩ 49 1 1001 (999 / 1000) 0 := by
  have h := (C147_polish_step ⟨1, 1, 1 / 1000, 1, 0, 0, 0⟩ 49 0 2 0 1 (by norm_num) (by norm_num) (by norm_num) (by norm_num [Par.f1, fder])
    (by norm_num [Par.f, Par.f1, Par.f2, fval, fder, fder2])).2
  norm_num [pressure, Par.halley, Par.f, Par.f1, Par.f2, fval, fder, fder2] at h
  rw [polish]
  exact h

theorem polishLoop_stuck (p : Par) (V : ℝ) (hb : V ≠ p.b) (h : 1 - 1 / 2 * (p.f V * (1 / p.f1 V)) * p.f2 V * (1 / p.f1 V) = 0) (n j : ℕ) (old oldold : ℝ) :
    polishLoop p n j V old oldold = some V := by
  induction n generalizing j with
  | zero => rw [polishLoop]
  | succ n ih =>
    rw [polishLoop, if_neg (sub_ne_zero.mpr hb)]
    by_cases h1 : quad p V = 0
    · rw [if_pos h1]
    by_cases h2 : p.f1 V = 0
    · rw [if_neg h1, if_pos h2]
    rw [if_neg h1, if_neg h2]
    dsimp only
    rw [if_pos h]
    exact ih _

/-- **C147 fails.** Where the denominator of the Halley step is zero the polishing loop repeats the same volume until its iterations are used up and returns it, whatever its error. -/
theorem C147_stuck_fails : polish ⟨1, 1 / 1000, 3 / 1000, 1 / 2, 0, 0, 3 / 1000⟩ 1 = some 1 ∧ pressure 1 (1 / 1000 : ℝ) (1 / 2) 0 0 (3 / 1000) 1 = -1 / 1000 :=
  ⟨polishLoop_stuck _ _ (by norm_num) (by norm_num [Par.f, Par.f1, Par.f2, fval, fder, fder2]) _ _ _ _, by norm_num [pressure]⟩

/-- **C147 fails.** A pole of the attraction is returned as a volume. -/
theorem C147_pole_fails (p : Par) (V : ℝ) (hb : V ≠ p.b) (h : V ^ 2 + p.delta * V + p.epsilon = 0) : polish p V = some V ∧ polishStep p V = some V := by
  constructor
  · unfold polish
    rw [polishLoop, if_neg (sub_ne_zero.mpr hb), if_pos (by rw [quad_eq, h])]
  · unfold polishStep
    rw [if_pos (by rw [quad_eq, h])]

example := C147_pole_fails ⟨1, 1, 1, 1, 0, -4, 1⟩ 2 (by norm_num) (by norm_num)

/-! ## Results -/

/-- The volume with a given compressibility factor. -/
theorem vol_root {p : Par} (hp : p.Ok) (ha : p.a ≠ 0) (hq : p.b ^ 2 + p.delta * p.b + p.epsilon ≠ 0) {x : ℝ}
    (hx : poly (coefB p.R p.T p.P p.b p.delta) (coefC p.R p.T p.P p.b p.delta p.epsilon p.a) (coefD p.R p.T p.P p.b p.epsilon p.a) x = 0) :
    x * (p.R * p.T * (1 / p.P)) ≠ p.b ∧ pressure p.R p.T p.b p.delta p.epsilon p.a (x * (p.R * p.T * (1 / p.P))) = p.P := by
  have hR := hp.R
  have hT := hp.T
  have hP := hp.P
  have hRT : p.R * p.T ≠ 0 := (mul_pos hR hT).ne'
  have e : p.P * (x * (p.R * p.T * (1 / p.P))) / (p.R * p.T) = x := by field_simp
  obtain ⟨h1, h2⟩ := C27_poles (R := p.R) (T := p.T) (P := p.P) (b := p.b) (delta := p.delta) (epsilon := p.epsilon) (a := p.a) hRT hP.ne'
  generalize x * (p.R * p.T * (1 / p.P)) = V at *
  have hb : V ≠ p.b := by
    rintro rfl
    rw [e] at h1
    exact hq (h1.mp hx)
  refine ⟨hb, (C27_iff hRT hP.ne' (sub_ne_zero.mpr hb) ?_).mp (by rw [e]; exact hx)⟩
  intro hV
  have := h2 V hV
  rw [e] at this
  rcases this.mp hx with h | h
  · exact ha h
  · exact hb h

/-- **C147.** If the iteration finds a volume exactly, then the result consists of that volume and, unless the attraction is less than 5e-13 of the pressure there, of all volumes at which the equation of state has the pressure: two zeros
stand for no others. -/
theorem C147_complete {p : Par} (hp : p.Ok) (ha : p.a ≠ 0) (hq : p.b ^ 2 + p.delta * p.b + p.epsilon ≠ 0) (hd : coefD p.R p.T p.P p.b p.epsilon p.a ≠ 0) {V : ℝ} (hV : p.b < V)
    (hr : pressure p.R p.T p.b p.delta p.epsilon p.a V = p.P) :
    ∃ B C, tail p V = some (V, B, C) ∧
      (1 / 2 / 10 ^ 12 * p.P ≤ p.a / (V ^ 2 + p.delta * V + p.epsilon) →
        (B = 0 ∧ C = 0 ∧ ∀ W, W ≠ p.b → W ^ 2 + p.delta * W + p.epsilon ≠ 0 → (pressure p.R p.T p.b p.delta p.epsilon p.a W = p.P ↔ W = V)) ∨
        ∀ W, W ≠ p.b → W ^ 2 + p.delta * W + p.epsilon ≠ 0 → (pressure p.R p.T p.b p.delta p.epsilon p.a W = p.P ↔ W = V ∨ W = B ∨ W = C)) := by
  have hR := hp.R
  have hT := hp.T
  have hP := hp.P
  have hb0 := hp.b
  have hRT : p.R * p.T ≠ 0 := (mul_pos hR hT).ne'
  have hV0 : 0 < V := by linarith
  have hqV := hp.q V hV
  have hqV' : V ^ 2 + p.delta * V + p.epsilon ≠ 0 := by
    have : V ^ 2 + p.delta * V + p.epsilon = V * (V + p.delta) + p.epsilon := by ring
    rw [this]; exact hqV.ne'
  have hpoly := (C27_iff (a := p.a) hRT hP.ne' (sub_ne_zero.mpr hV.ne') hqV').mpr hr
  have hx0 : p.P * V / (p.R * p.T) ≠ 0 := by positivity
  obtain ⟨d1, d2⟩ := C28_deflate hx0 hpoly
  have hback : ∀ W, W = p.P * W / (p.R * p.T) * (p.R * p.T * (1 / p.P)) := by
    intro W; field_simp
  rcases lt_or_ge ((coefB p.R p.T p.P p.b p.delta + p.P * V / (p.R * p.T)) * (coefB p.R p.T p.P p.b p.delta + p.P * V / (p.R * p.T)) - 4 * (-coefD p.R p.T p.P p.b p.epsilon p.a / (p.P * V / (p.R * p.T)))) 0 with hD | hD
  · refine ⟨0, 0, ?_, fun _ => .inl ⟨rfl, rfl, fun W hWb hWq => ⟨fun h => ?_, fun h => by rw [h]; exact hr⟩⟩⟩
    · unfold tail
      dsimp only
      rw [if_pos]
      simp only [deflate]
      rw [if_pos hD]
    · have := d1 hD _ ((C27_iff (a := p.a) hRT hP.ne' (sub_ne_zero.mpr hWb) hWq).mpr h)
      rw [hback W, this, ← hback V]
  · have fac := d2 hD
    generalize hx : deflate (coefB p.R p.T p.P p.b p.delta) (coefD p.R p.T p.P p.b p.epsilon p.a) (p.P * V / (p.R * p.T)) = x at *
    have hx1 : x.1 ≠ 0 := by
      intro h
      have := fac 0
      rw [h] at this
      simp [poly] at this
      exact hd this
    have r1 := vol_root hp ha hq (x := x.1) (by rw [fac]; ring)
    have r2 := vol_root hp ha hq (x := x.2) (by rw [fac]; ring)
    obtain ⟨s1, l1⟩ := C147_polish p _ r1.1 r1.2
    obtain ⟨s2, l2⟩ := C147_polish p _ r2.1 r2.2
    have hm : p.R * p.T / (V - p.b) - p.a / (V * V + p.delta * V + p.epsilon) = p.P := by
      have : V * V + p.delta * V + p.epsilon = V ^ 2 + p.delta * V + p.epsilon := by ring
      rw [this]
      exact hr
    by_cases hsmall : p.R * p.T / (V - p.b) + p.a / (V * V + p.delta * V + p.epsilon) = p.R * p.T / (V - p.b) ∨
        (p.R * p.T / (V - p.b) - p.a / (V * V + p.delta * V + p.epsilon) ≠ 0 ∧ |1 - (p.R * p.T / (V - p.b) + p.a / (V * V + p.delta * V + p.epsilon)) / (p.R * p.T / (V - p.b) - p.a / (V * V + p.delta * V + p.epsilon))| < 1 / 10 ^ 12)
    · refine ⟨0, 0, ?_, fun hbig => absurd hsmall ?_⟩
      · unfold tail
        dsimp only
        rw [hx, if_neg hx1, if_pos hsmall]
      · have e : V * V + p.delta * V + p.epsilon = V ^ 2 + p.delta * V + p.epsilon := by ring
        rw [e] at hm ⊢
        have hbig' : 0 < p.a / (V ^ 2 + p.delta * V + p.epsilon) := lt_of_lt_of_le (by positivity) hbig
        have hsum : p.R * p.T / (V - p.b) + p.a / (V ^ 2 + p.delta * V + p.epsilon) = p.P + 2 * (p.a / (V ^ 2 + p.delta * V + p.epsilon)) := by linarith
        rintro (h | ⟨-, h⟩)
        · linarith
        · rw [hm, hsum] at h
          have : 1 - (p.P + 2 * (p.a / (V ^ 2 + p.delta * V + p.epsilon))) / p.P = -(2 * (p.a / (V ^ 2 + p.delta * V + p.epsilon)) / p.P) := by field_simp; ring
          rw [this, abs_neg, abs_of_pos (by positivity), div_lt_iff₀ hP] at h
          linarith
    · refine ⟨x.1 * (p.R * p.T * (1 / p.P)), x.2 * (p.R * p.T * (1 / p.P)), ?_, fun _ => .inr fun W hWb hWq => ⟨fun h => ?_, ?_⟩⟩
      · unfold tail
        dsimp only
        rw [hx, if_neg hx1, if_neg hsmall]
        split_ifs with h1 h2
        · rw [l1, l2]; rfl
        · rw [l2]; rfl
        · rw [s1, s2]; rfl
      · have := (C27_iff (a := p.a) hRT hP.ne' (sub_ne_zero.mpr hWb) hWq).mpr h
        rw [fac, mul_eq_zero, mul_eq_zero, sub_eq_zero, sub_eq_zero, sub_eq_zero] at this
        rcases this with (h | h) | h
        · left; rw [hback W, h, ← hback V]
        · right; left; rw [hback W, h]
        · right; right; rw [hback W, h]
      · rintro (rfl | rfl | rfl)
        · exact hr
        · exact r1.2
        · exact r2.2

/-- A van der Waals fluid with the volumes 2, 3 and 6. -/
def vdw : Par := ⟨1, 10, 1, 1, 0, 0, 36⟩

theorem vdw_ok : vdw.Ok := ⟨by norm_num [vdw], by norm_num [vdw], by norm_num [vdw], by norm_num [vdw], by norm_num [vdw], fun V hV => by simp only [vdw] at hV ⊢; nlinarith⟩

example := C147_complete vdw_ok (by norm_num [vdw]) (by norm_num [vdw]) (by norm_num [vdw, coefD]) (V := 6) (by norm_num [vdw]) (by norm_num [vdw, pressure])

/-- **C147 fails.** A vapor in which the attraction is negligible is returned as the only volume, although there are liquid volumes with the same pressure. -/
theorem C147_dropped_fails : ∃ p : Par, p.Ok ∧ tail p (10 ^ 14) = some (10 ^ 14, 0, 0) ∧ ∀ V ∈ [2, 3, (10 : ℝ) ^ 14], p.b < V ∧ pressure p.R p.T p.b p.delta p.epsilon p.a V = p.P := by
  refine ⟨⟨1, 5 + 10 ^ 14 - 6 * 10 ^ 14 / (5 * 10 ^ 14 + 6), 1, 6 * 10 ^ 14 / (5 * 10 ^ 14 + 6), 0, 0, 6 + 5 * 10 ^ 14⟩, ⟨by norm_num, by norm_num, by norm_num, by norm_num, by norm_num, fun V hV => ?_⟩, ?_, ?_⟩
  · have h0 : (0 : ℝ) < V := lt_trans (by norm_num) hV
    simp only
    nlinarith
  · unfold tail
    dsimp only
    split_ifs with h1 h2 h3 h4
    · rfl
    · rfl
    · exact absurd (.inr ⟨by norm_num, by norm_num [abs_lt]⟩) h2
    · exact absurd (.inr ⟨by norm_num, by norm_num [abs_lt]⟩) h2
    · exact absurd (.inr ⟨by norm_num, by norm_num [abs_lt]⟩) h2
  · intro V hV
    simp only [List.mem_cons, List.not_mem_nil, or_false] at hV
    rcases hV with rfl | rfl | rfl <;> constructor <;> norm_num [pressure]

theorem hrun_spec (p : Par) (n j k : ℕ) (s : HState) (V : ℝ) (hs : HReach p j s) (h : hrun p n j s = some (k, V)) :
    (j ≤ k ∧ k < j + n ∧ ∃ s', HReach p k s' ∧ hstep p k s' = .done V) ∨ k = j + n - 1 := by
  induction n generalizing j s with
  | zero =>
    rw [hrun] at h
    cases h
    exact .inr rfl
  | succ n ih =>
    rw [hrun] at h
    cases hc : hstep p j s with
    | error => rw [hc] at h; cases h
    | done W =>
      rw [hc] at h
      cases h
      exact .inl ⟨le_rfl, by omega, s, hs, hc⟩
    | next s' =>
      rw [hc] at h
      rcases ih (j + 1) s' (.step hs hc) h with ⟨h1, h2, h3⟩ | h1
      · exact .inl ⟨by omega, by omega, h3⟩
      · exact .inr (by omega)

/-- **C147.** Where the first volume of a result comes from: nothing was found; there is no attraction and it is the only volume; the attraction is above ten thousand and it is the only volume; or it is a Halley iterate which differs by less
than 6e-16 from the volume before, or from a volume with a residual below 1e-12 of the pressure after more than 25 iterations. -/
theorem C147_first {p : Par} (hp : p.Ok) (hq : p.b ^ 2 + p.delta * p.b + p.epsilon ≠ 0) {A B C : ℝ} (h : solve p = some (A, B, C)) :
    (A = 0 ∧ B = 0 ∧ C = 0) ∨
    ((p.a = 0 ∨ 10 ^ 4 < p.a) ∧ B = 0 ∧ C = 0 ∧ ∀ W, W ≠ p.b → W ^ 2 + p.delta * W + p.epsilon ≠ 0 → (pressure p.R p.T p.b p.delta p.epsilon p.a W = p.P ↔ W = A)) ∨
    ∃ j s, j < 49 ∧ HReach p j s ∧ A = p.halley s.V ∧ (|1 - A / s.V| < 6 / 10 ^ 16 ∨ (25 < j ∧ |pressure p.R p.T p.b p.delta p.epsilon p.a s.V - p.P| / p.P < 1 / 10 ^ 12)) := by
  have hR := hp.R
  have hT := hp.T
  have hP := hp.P
  have hRT : p.R * p.T ≠ 0 := (mul_pos hR hT).ne'
  have hqb : p.b * (p.b + p.delta) + p.epsilon ≠ 0 := by
    have : p.b * (p.b + p.delta) + p.epsilon = p.b ^ 2 + p.delta * p.b + p.epsilon := by ring
    rwa [this]
  unfold solve at h
  rw [if_neg hqb] at h
  by_cases ha : p.a / (p.b * (p.b + p.delta) + p.epsilon) + p.P = p.P
  · rw [if_pos ha] at h
    cases h
    have ha0 : p.a = 0 := by
      have : p.a / (p.b * (p.b + p.delta) + p.epsilon) = 0 := by linarith
      exact (div_eq_zero_iff.mp this).resolve_right hqb
    refine .inr (.inl ⟨.inl ha0, rfl, rfl, fun W hWb hWq => ?_⟩)
    have hWb' : W - p.b ≠ 0 := sub_ne_zero.mpr hWb
    simp only [pressure, ha0, zero_div, sub_zero]
    rw [div_eq_iff hWb']
    constructor
    · intro e
      field_simp
      linarith
    · intro e
      rw [e]
      field_simp
      ring
  rw [if_neg ha] at h
  have ha0 : p.a ≠ 0 := by
    intro e
    rw [e] at ha
    simp at ha
  by_cases hh : 10 ^ 4 < p.a ∧ highAlpha p ≠ 0
  · rw [if_pos hh] at h
    simp only [Option.some.injEq, Prod.mk.injEq] at h
    obtain ⟨rfl, rfl, rfl⟩ := h
    refine .inr (.inl ⟨.inr hh.1, rfl, rfl, ?_⟩)
    obtain ⟨-, hne⟩ := hh
    unfold highAlpha at hne ⊢
    cases ho : oneRoot (coefB p.R p.T p.P p.b p.delta) (coefC p.R p.T p.P p.b p.delta p.epsilon p.a) (coefD p.R p.T p.P p.b p.epsilon p.a) with
    | none => rw [ho] at hne; exact absurd rfl hne
    | some x =>
      obtain ⟨h1, h2⟩ := C28_one_root ho
      obtain ⟨h3, h4⟩ := vol_root hp ha0 hq h1
      have e : p.R * p.T * (1 / p.P) = p.R * p.T / p.P := by ring
      rw [e] at h3 h4
      dsimp only
      rw [if_neg h3]
      intro W hWb hWq
      refine ⟨fun hW => ?_, fun hW => by rw [hW]; exact h4⟩
      have := h2 _ ((C27_iff (a := p.a) hRT hP.ne' (sub_ne_zero.mpr hWb) hWq).mpr hW)
      rw [← this]
      field_simp
  rw [if_neg hh] at h
  by_cases hc : coefC p.R p.T p.P p.b p.delta p.epsilon p.a = 0
  · rw [if_pos hc] at h
    cases h
  rw [if_neg hc] at h
  cases hr : hrun p 50 0 (hinit p) with
  | none => rw [hr] at h; cases h
  | some q =>
    obtain ⟨j, V⟩ := q
    rw [hr] at h
    dsimp only at h
    by_cases hj : j ≠ 49
    · rw [if_pos hj] at h
      have hA : A = V := by
        unfold tail at h
        dsimp only at h
        split_ifs at h with h1 h2 h3 h4
        · cases h; rfl
        · cases h; rfl
        · obtain ⟨_, -, h5⟩ := Option.bind_eq_some_iff.mp h
          obtain ⟨_, -, h6⟩ := Option.map_eq_some_iff.mp h5
          cases h6; rfl
        · obtain ⟨_, -, h5⟩ := Option.bind_eq_some_iff.mp h
          obtain ⟨_, -, h6⟩ := Option.map_eq_some_iff.mp h5
          cases h6; rfl
        · obtain ⟨_, -, h5⟩ := Option.bind_eq_some_iff.mp h
          obtain ⟨_, -, h6⟩ := Option.map_eq_some_iff.mp h5
          cases h6; rfl
      subst hA
      rcases hrun_spec p 50 0 j _ A .init hr with ⟨-, h2, s', h3, h4⟩ | h2
      · refine .inr (.inr ⟨j, s', by omega, h3, ?_⟩)
        refine (C28_halley_exit hp h3 ?_ A).mp h4
        intro h0
        unfold hstep at h4
        dsimp only at h4
        rw [if_pos h0] at h4
        cases h4
      · omega
    · rw [if_neg hj] at h
      cases h
      exact .inl ⟨rfl, rfl, rfl⟩

/-- **C147 fails.** A volume found before the last iteration is the first of the result, one found in the last is lost. -/
theorem C147_last_fails {p : Par} (hq : p.b * (p.b + p.delta) + p.epsilon ≠ 0) (ha : p.a ≠ 0) (hh : p.a ≤ 10 ^ 4) (hc : coefC p.R p.T p.P p.b p.delta p.epsilon p.a ≠ 0) {j : ℕ} {V : ℝ}
    (hr : hrun p 50 0 (hinit p) = some (j, V)) : (j ≠ 49 → solve p = tail p V) ∧ (j = 49 → solve p = some (0, 0, 0)) := by
  have h1 : ¬ (p.a / (p.b * (p.b + p.delta) + p.epsilon) + p.P = p.P) := by
    intro h
    have : p.a / (p.b * (p.b + p.delta) + p.epsilon) = 0 := by linarith
    rcases div_eq_zero_iff.mp this with h | h
    · exact ha h
    · exact hq h
  unfold solve
  rw [if_neg hq, if_neg h1, if_neg (fun h => absurd h.1 (not_lt.mpr hh)), if_neg hc, hr]
  dsimp only
  exact ⟨fun h => if_pos h, fun h => if_neg (by simpa using h)⟩

/-- **C147 fails.** If the covolume is a pole of the attraction there is a division by zero. -/
theorem C147_covolume_fails (p : Par) (h : p.b ^ 2 + p.delta * p.b + p.epsilon = 0) : solve p = none := by
  unfold solve
  rw [if_pos (by rw [← h]; ring)]

/-- An ideal gas written as a cubic equation. -/
example : solve ⟨1, 1, 1, 0, 0, 0, 0⟩ = none := C147_covolume_fails _ (by norm_num)

/-- A gas of hard spheres. -/
example : solve ⟨1, 1, 1, 1, 0, 0, 0⟩ = some (2, 0, 0) := by
  unfold solve
  rw [if_neg (by norm_num), if_pos (by norm_num)]
  norm_num

/-- `horner_and_der_as_error` (1564-1571). -/
def hornerDer (x : ℝ) (coeffs : List ℝ) : ℝ × ℝ := coeffs.foldl (fun s a => (x * s.1 + a, x * s.2 + s.1)) (0, 0)

/-- **C147.** The error of the solver at large attractions is the cubic with its derivative. -/
theorem C147_horner (b c d x : ℝ) : (hornerDer x [1, b, c, d]).1 = poly b c d x ∧ HasDerivAt (fun z => poly b c d z) (hornerDer x [1, b, c, d]).2 x := by
  constructor
  · simp [hornerDer, poly]
    ring
  · have h : HasDerivAt (fun z : ℝ => poly b c d z) (3 * x ^ 2 + b * (2 * x) + c) x := by
      unfold poly
      have h1 := hasDerivAt_pow 3 x
      have h2 := (hasDerivAt_pow 2 x).const_mul b
      have h3 := (hasDerivAt_id x).const_mul c
      refine (((h1.add h2).add h3).add_const d).congr_deriv ?_
      norm_num
    refine h.congr_deriv ?_
    simp [hornerDer]
    ring

example : hornerDer 2 [1, 0, 0, -8] = (0, 12) := by norm_num [hornerDer]

/-! ## Newton's method -/

/-- The residual and slope over complex volumes (578-586). -/
noncomputable def res (p : Par) (V : ℂ) : ℂ := p.R * p.T * (1 / (V - p.b)) - p.a * (1 / (V * (V + p.delta) + p.epsilon)) - p.P

@[inherit_doc res] noncomputable def der (p : Par) (V : ℂ) : ℂ :=
  (V + V + p.delta) * (p.a * (1 / (V * (V + p.delta) + p.epsilon))) * (1 / (V * (V + p.delta) + p.epsilon)) - p.R * p.T * (1 / (V - p.b)) * (1 / (V - p.b))

/-- Iterations for one root (574-591): `n` left, first guess `Vi`, the last residual and its relative size. `none`: division by zero. -/
noncomputable def nrLoop (p : Par) (Vi : ℂ) : ℕ → ℂ → ℂ → ℝ → Option (ℂ × ℝ)
  | 0, V, _, rel => some (V, rel)
  | n + 1, V, err, rel =>
    open Classical in
    if V * (V + p.delta) + p.epsilon = 0 ∨ V - p.b = 0 then none
    else if res p V = err then some (V, rel)
    else if der p V = 0 then none
    else
      let V' := V - res p V / der p V
      let rel' := ‖res p V * (1 / p.P)‖
      if rel' < 1 / 10 ^ 14 ∨ V' = Vi then some (V', rel') else nrLoop p Vi n V' (res p V) rel'

/-- State of the loop over the roots. -/
structure NR where
  /-- volumes already replaced -/
  done : List ℂ
  /-- `rel_err`, not reset between roots -/
  rel : ℝ
  /-- `max_err` -/
  maxErr : ℝ
  /-- `failed` -/
  failed : Bool

open Classical in
/-- The loop over the roots (570-607). A division by zero or a change by five percent ends it, keeping the volumes not treated. -/
noncomputable def nrRoots (p : Par) : List ℂ → NR → NR
  | [], s => s
  | Vi :: rest, s =>
    match nrLoop p Vi 11 Vi 0 s.rel with
    | none => { s with done := s.done ++ Vi :: rest, failed := true }
    | some (V, rel) =>
      let failed := s.failed || decide (1 / 100 < rel)
      if V = 0 then { s with done := s.done ++ Vi :: rest, rel := rel, failed := true }
      else if ¬ (95 / 100 < (Vi / V).re ∧ (Vi / V).re < 105 / 100) then { done := s.done ++ Vi :: rest, rel := rel, maxErr := 10 ^ 100, failed := true }
      else nrRoots p rest ⟨s.done ++ [V], rel, max s.maxErr rel, failed⟩

/-- A volume that counts (631). -/
noncomputable def physical (p : Par) (V : ℂ) : Prop := p.b < V.re ∧ (V.re = 0 ∨ |V.im / V.re| < 1 / 10 ^ 12)

/-- What follows (631-658). -/
inductive After where
  /-- try the next closed form -/
  | retry
  /-- `volume_solutions_mpmath_float` -/
  | mpmath
  /-- `volume_solutions_NR_low_P` -/
  | lowP
  /-- these volumes -/
  | ok (Vs : List ℂ)

open Classical in
@[inherit_doc After] noncomputable def after (p : Par) (tries : ℕ) (s : NR) : After :=
  let rootFailed : Bool := decide (¬ ∃ V ∈ s.done, physical p V)
  let failed := s.failed || rootFailed
  if failed ∧ tries < 2 then .retry
  else if rootFailed then .mpmath
  else if failed ∧ tries = 2 then (if s.maxErr < 5000 then .ok s.done else .lowP)
  else .ok s.done

/-- `volume_solutions_NR` (517-658) from a number of tries on; `n`: tries left. `form t`: the closed form of try `t` (542-549), `backup t`: the one used if it raises (555-560). -/
noncomputable def nr (p : Par) (form backup : ℕ → Option (List ℂ)) (lowP mp : Option (List ℂ)) : ℕ → ℕ → Option (List ℂ)
  | 0, _ => none
  | n + 1, tries =>
    open Classical in
    if p.a = 0 then some [((p.b + p.R * p.T / p.P : ℝ) : ℂ), -Complex.I, -Complex.I]
    else if p.P < 1 / 100 ∧ (lowP.orElse fun _ => mp) ≠ none then lowP.orElse fun _ => mp
    else match (form tries).orElse fun _ => backup tries with
      | none => none
      | some Vs => match after p tries (nrRoots p Vs ⟨[], 0, 0, false⟩) with
        | .retry => nr p form backup lowP mp n (tries + 1)
        | .mpmath => mp
        | .lowP => lowP
        | .ok Vs => some Vs

/-- A volume off the poles with the pressure. -/
def Solves (p : Par) (V : ℂ) : Prop := V - p.b ≠ 0 ∧ V ^ 2 + p.delta * V + p.epsilon ≠ 0 ∧ pressure (K := ℂ) p.R p.T p.b p.delta p.epsilon p.a V = p.P

theorem res_eq (p : Par) (V : ℂ) : res p V = pressure (K := ℂ) p.R p.T p.b p.delta p.epsilon p.a V - p.P := by
  unfold res pressure
  have : V ^ 2 + p.delta * V + p.epsilon = V * (V + p.delta) + p.epsilon := by ring
  rw [this]
  ring

/-- Newton's method leaves solutions in place, without evaluating their relative error. -/
theorem nrLoop_exact (p : Par) (V : ℂ) (rel : ℝ) (h : Solves p V) : nrLoop p V 11 V 0 rel = some (V, rel) := by
  have hq : V * (V + p.delta) + p.epsilon ≠ 0 := by
    have := h.2.1
    intro h0
    exact this (by rw [← h0]; ring)
  rw [nrLoop, if_neg (not_or.mpr ⟨hq, h.1⟩), if_pos (by rw [res_eq, h.2.2, sub_self])]

theorem nrRoots_exact (p : Par) (Vs : List ℂ) (h : ∀ V ∈ Vs, Solves p V ∧ V ≠ 0) (dn : List ℂ) : nrRoots p Vs ⟨dn, 0, 0, false⟩ = ⟨dn ++ Vs, 0, 0, false⟩ := by
  induction Vs generalizing dn with
  | nil => simp [nrRoots]
  | cons V rest ih =>
    obtain ⟨h1, h2⟩ := h V (by simp)
    rw [nrRoots]
    simp only [nrLoop_exact p V 0 h1]
    rw [if_neg h2, if_neg (by rw [div_self h2]; norm_num)]
    have := ih (fun W hW => h W (by simp [hW])) (dn ++ [V])
    have hdec : decide ((1 : ℝ) / 100 < 0) = false := by norm_num
    rw [hdec]
    simpa using this

/-- **C147.** Volumes from a closed form that solve the equation of state are returned as they are, at the first try, if one of them is real and above the covolume. -/
theorem C147_nr (p : Par) (form backup : ℕ → Option (List ℂ)) (lowP mp : Option (List ℂ)) (n : ℕ) (Vs : List ℂ) (ha : p.a ≠ 0) (hP : 1 / 100 ≤ p.P) (hf : form 0 = some Vs)
    (h : ∀ V ∈ Vs, Solves p V ∧ V ≠ 0) (hr : ∃ V ∈ Vs, p.b < V.re ∧ V.im = 0) : nr p form backup lowP mp (n + 1) 0 = some Vs := by
  rw [nr, if_neg ha, if_neg (fun h => absurd h.1 (not_lt.mpr hP)), hf]
  simp only [Option.orElse]
  rw [nrRoots_exact p Vs h []]
  have hph : ∃ V ∈ Vs, physical p V := by
    obtain ⟨V, h1, h2, h3⟩ := hr
    exact ⟨V, h1, h2, .inr (by rw [h3]; norm_num)⟩
  simp [after, hph]

example : nr vdw (fun _ => some [2, 3, 6]) (fun _ => none) none none 3 0 = some [2, 3, 6] := by
  apply C147_nr
  · norm_num [vdw]
  · norm_num [vdw]
  · rfl
  · intro V hV
    simp only [List.mem_cons, List.not_mem_nil, or_false] at hV
    rcases hV with rfl | rfl | rfl <;> refine ⟨⟨?_, ?_, ?_⟩, ?_⟩ <;> norm_num [vdw, pressure]
  · exact ⟨2, by simp, by norm_num [vdw], by simp⟩

theorem nrRoots_failed (p : Par) (Vs : List ℂ) (s : NR) (h : (nrRoots p Vs s).failed = false) : s.failed = false ∧ s.maxErr ≤ (nrRoots p Vs s).maxErr := by
  induction Vs generalizing s with
  | nil => rw [nrRoots] at h ⊢; exact ⟨h, le_rfl⟩
  | cons V rest ih =>
    rw [nrRoots] at h ⊢
    cases hl : nrLoop p V 11 V 0 s.rel with
    | none => rw [hl] at h; simp at h
    | some r =>
      obtain ⟨W, rel⟩ := r
      rw [hl] at h
      dsimp only at h ⊢
      split_ifs at h ⊢ with h1 h2
      obtain ⟨h3, h4⟩ := ih _ h
      simp only [Bool.or_eq_false_iff] at h3
      exact ⟨h3.1, le_trans (le_max_left _ _) h4⟩

/-- **C147.** When volumes are accepted: one of them is real and above the covolume, and either no root failed or it was the third try with an error below five thousand. There are at most three tries. -/
theorem C147_after (p : Par) (tries : ℕ) (s : NR) (Vs : List ℂ) (h : after p tries s = .ok Vs) :
    Vs = s.done ∧ (∃ V ∈ Vs, p.b < V.re ∧ (V.re = 0 ∨ |V.im / V.re| < 1 / 10 ^ 12)) ∧ (s.failed = false ∨ (2 ≤ tries ∧ (tries = 2 → s.maxErr < 5000))) := by
  classical
  unfold after at h
  dsimp only at h
  by_cases hr : ∃ V ∈ s.done, physical p V
  · have hd : decide (¬ ∃ V ∈ s.done, physical p V) = false := by simpa using hr
    rw [hd] at h
    simp only [Bool.or_false] at h
    split_ifs at h with h1 h2 h3 h4
    · cases h; exact ⟨rfl, hr, .inr ⟨by omega, fun _ => h4⟩⟩
    · cases h
      refine ⟨rfl, hr, ?_⟩
      cases hf : s.failed with
      | false => exact .inl rfl
      | true =>
        rw [hf] at h1 h3
        simp only [true_and] at h1 h3
        exact .inr ⟨by omega, fun e => absurd e h3⟩
  · have hd : decide (¬ ∃ V ∈ s.done, physical p V) = true := by simpa using hr
    rw [hd] at h
    simp only [Bool.or_true, true_and] at h
    split_ifs at h

example : after vdw 0 ⟨[2, 3, 6], 0, 0, false⟩ = .ok [2, 3, 6] := by
  have : ∃ V ∈ [(2 : ℂ), 3, 6], physical vdw V := ⟨2, by simp, by norm_num [vdw], .inr (by norm_num)⟩
  simp only [after, this, not_true_eq_false, decide_false, Bool.or_false]
  simp

/-- **C147 fails.** On the third try volumes which failed are returned if the pressure is off by less than five thousand times its value: here 4 is returned where the pressure is not 1. -/
theorem C147_third_fails : after vdw 2 ⟨[4], 4999, 4999, true⟩ = .ok [4] ∧ ¬ Solves vdw 4 := by
  constructor
  · have : ∃ V ∈ [(4 : ℂ)], physical vdw V := ⟨4, by simp, by norm_num [vdw], .inr (by norm_num)⟩
    simp only [after, this, not_true_eq_false, decide_false, Bool.or_false]
    norm_num
  · rintro ⟨-, -, h⟩
    norm_num [vdw, pressure] at h

/-! ## Low pressures -/

/-- Iterations for one root at low pressure (709-723), over real volumes; `none`: division by zero. A zero slope leaves the volume in place. -/
noncomputable def lowLoop (p : Par) (Vi : ℝ) : ℕ → ℝ → ℝ → ℝ → Option (ℝ × ℝ)
  | 0, V, _, rel => some (V, rel)
  | n + 1, V, err, rel =>
    open Classical in
    if quad p V = 0 ∨ V - p.b = 0 then none
    else if p.f V = err then some (V, rel)
    else
      let V' := if p.f1 V ≠ 0 then V - p.f V / p.f1 V else V
      let rel' := |p.f V * (1 / p.P)|
      if rel' < 1 / 10 ^ 14 ∨ V' = Vi then some (V', rel') else lowLoop p Vi n V' (p.f V) rel'

/-- `brenth` between two volumes: nothing if the residual does not change sign. -/
abbrev Brenth := (low high : ℝ) → Option ℝ

open Classical in
/-- The volume found between brackets with its Newton step (727-747); `none`: `1j`. -/
noncomputable def bracketed (p : Par) (brenth : Brenth) : Option ℝ :=
  match (brenth (p.b * (1 + 1 / 10 ^ 12)) (p.b * (3 / 2))).orElse (fun _ => if p.a < 1 / 10 ^ 5 then brenth (p.b * (3 / 2)) (p.b * 5) else none) with
  | none => none
  | some V =>
    if quad p V = 0 ∨ V - p.b = 0 ∨ p.f1 V = 0 ∨ V = 0 then none
    else
      let V1 := V - p.f V / p.f1 V
      some (if |(V1 - V) / V| < 1 / 10 ^ 10 then V1 else V)

open Classical in
/-- One root at low pressure (706-756): gas for `i = 0`, liquid for `i = 1`. Inner `none`: `1j`. -/
noncomputable def lowRoot (p : Par) (brenth : Brenth) (i : ℕ) (rel : ℝ) : Option (Option ℝ × ℝ) :=
  let Vi := if i = 0 then p.R * p.T / p.P else p.b * (1 + 1 / 10 ^ 6)
  match lowLoop p Vi 31 Vi 0 rel with
  | none => none
  | some (V, rel) =>
    let V' := if (i = 1 ∧ 3 / 2 * p.b < V) ∨ V < p.b then bracketed p brenth else some V
    some (if i = 0 ∧ 1 / 10 ^ 8 < rel then none else V', rel)

/-- `volume_solutions_NR_low_P` (660-760): gas and liquid; the third volume is always `1j`. -/
noncomputable def lowP (p : Par) (brenth : Brenth) : Option (Option ℝ × Option ℝ) :=
  (lowRoot p brenth 0 0).bind fun g => (lowRoot p brenth 1 g.2).map fun l => (g.1, l.1)

theorem lowLoop_rel (p : Par) (Vi : ℝ) (n : ℕ) (V err rel W r : ℝ) (h : lowLoop p Vi n V err rel = some (W, r)) (h0 : n ≠ 0) :
    (W = V ∧ r = rel ∧ p.f V = err) ∨ ∃ U, r = |p.f U * (1 / p.P)| ∧ ((p.f1 U ≠ 0 ∧ W = U - p.f U / p.f1 U) ∨ (p.f1 U = 0 ∧ W = U) ∨ p.f W = p.f U) := by
  induction n generalizing V err rel with
  | zero => exact absurd rfl h0
  | succ n ih =>
    rw [lowLoop] at h
    by_cases h1 : quad p V = 0 ∨ V - p.b = 0
    · rw [if_pos h1] at h; cases h
    rw [if_neg h1] at h
    by_cases h2 : p.f V = err
    · rw [if_pos h2] at h
      cases h
      exact .inl ⟨rfl, rfl, h2⟩
    rw [if_neg h2] at h
    dsimp only at h
    have step : ∀ W', W' = (if p.f1 V ≠ 0 then V - p.f V / p.f1 V else V) → ((p.f1 V ≠ 0 ∧ W' = V - p.f V / p.f1 V) ∨ (p.f1 V = 0 ∧ W' = V)) := by
      intro W' hW
      split_ifs at hW with h3
      · exact .inl ⟨h3, hW⟩
      · exact .inr ⟨not_not.mp h3, hW⟩
    by_cases h3 : |p.f V * (1 / p.P)| < 1 / 10 ^ 14 ∨ (if p.f1 V ≠ 0 then V - p.f V / p.f1 V else V) = Vi
    · rw [if_pos h3] at h
      simp only [Option.some.injEq, Prod.mk.injEq] at h
      obtain ⟨h4, rfl⟩ := h
      refine .inr ⟨V, rfl, ?_⟩
      rcases step W h4.symm with h | h
      · exact .inl h
      · exact .inr (.inl h)
    rw [if_neg h3] at h
    cases n with
    | zero =>
      rw [lowLoop] at h
      simp only [Option.some.injEq, Prod.mk.injEq] at h
      obtain ⟨h4, rfl⟩ := h
      refine .inr ⟨V, rfl, ?_⟩
      rcases step W h4.symm with h | h
      · exact .inl h
      · exact .inr (.inl h)
    | succ m =>
      rcases ih _ _ _ h (by omega) with ⟨h4, h5, h6⟩ | h4
      · refine .inr ⟨V, h5, .inr (.inr ?_)⟩
        rw [h4]
        exact h6
      · exact .inr h4

/-- **C147.** A gas volume at low pressure is a Newton step from one at which the pressure is right to 1e-8, or has the same residual as it, or comes from the bracket of liquids because it fell below the covolume. -/
theorem C147_low_gas (p : Par) (brenth : Brenth) (hP : 0 < p.P) (V rel : ℝ) (h : lowRoot p brenth 0 0 = some (some V, rel)) :
    bracketed p brenth = some V ∨ pressure p.R p.T p.b p.delta p.epsilon p.a V = p.P ∨
    ∃ U, |pressure p.R p.T p.b p.delta p.epsilon p.a U - p.P| / p.P ≤ 1 / 10 ^ 8 ∧
      ((p.f1 U ≠ 0 ∧ V = U - (pressure p.R p.T p.b p.delta p.epsilon p.a U - p.P) / p.f1 U) ∨ V = U ∨ pressure p.R p.T p.b p.delta p.epsilon p.a V = pressure p.R p.T p.b p.delta p.epsilon p.a U) := by
  have hf : ∀ W, p.f W = pressure p.R p.T p.b p.delta p.epsilon p.a W - p.P := fun W => fval_eq
  unfold lowRoot at h
  dsimp only at h
  rw [if_pos rfl] at h
  cases hl : lowLoop p (p.R * p.T / p.P) 31 (p.R * p.T / p.P) 0 0 with
  | none => rw [hl] at h; cases h
  | some r =>
    obtain ⟨W, rel'⟩ := r
    rw [hl] at h
    simp only [Option.some.injEq, Prod.mk.injEq, true_and] at h
    obtain ⟨h1, rfl⟩ := h
    by_cases hrel : 1 / 10 ^ 8 < rel'
    · rw [if_pos hrel] at h1; cases h1
    rw [if_neg hrel] at h1
    by_cases hb : (0 = 1 ∧ 3 / 2 * p.b < W) ∨ W < p.b
    · rw [if_pos hb] at h1
      exact .inl h1
    rw [if_neg hb] at h1
    cases h1
    rcases lowLoop_rel p _ 31 _ 0 0 _ _ hl (by norm_num) with ⟨h2, -, h4⟩ | ⟨U, h2, h3⟩
    · right; left
      rw [← h2, hf] at h4
      linarith
    · right; right
      refine ⟨U, ?_, ?_⟩
      · have : |p.f U * (1 / p.P)| = |pressure p.R p.T p.b p.delta p.epsilon p.a U - p.P| / p.P := by rw [hf, mul_one_div, abs_div, abs_of_pos hP]
        rw [← this, ← h2]
        exact not_lt.mp hrel
      · rcases h3 with h | h | h
        · left; rw [← hf]; exact h
        · right; left; exact h.2
        · right; right
          rw [hf, hf] at h
          linarith

/-- **C147 partial.** A liquid volume at low pressure lies between the covolume and one and a half times it, or comes from a bracket. Missing: that the pressure is right, see `C147_low_liquid_fails`. -/
theorem C147_low_liquid_partial (p : Par) (brenth : Brenth) (r0 V rel : ℝ) (h : lowRoot p brenth 1 r0 = some (some V, rel)) :
    bracketed p brenth = some V ∨ (p.b ≤ V ∧ V ≤ 3 / 2 * p.b) := by
  unfold lowRoot at h
  dsimp only at h
  rw [if_neg (by norm_num)] at h
  cases hl : lowLoop p (p.b * (1 + 1 / 10 ^ 6)) 31 (p.b * (1 + 1 / 10 ^ 6)) 0 r0 with
  | none => rw [hl] at h; cases h
  | some r =>
    obtain ⟨W, rel'⟩ := r
    rw [hl] at h
    simp only [Option.some.injEq, Prod.mk.injEq, true_and] at h
    obtain ⟨h1, -⟩ := h
    rw [if_neg (by norm_num)] at h1
    by_cases hb : (3 / 2 * p.b < W) ∨ W < p.b
    · rw [if_pos hb] at h1
      exact .inl h1
    · rw [if_neg hb] at h1
      cases h1
      push Not at hb
      exact .inr ⟨hb.2, hb.1⟩

/-- A liquid with a zero slope at the first guess. -/
noncomputable def flat : Par := ⟨1, 1, 1 / 1000, 10 ^ 6, 0, 0, 1000001 ^ 3 / 2⟩

/-- **C147 fails.** The error of the liquid is not tested: a guess with zero slope is returned as volume, with a pressure far below the given one. -/
theorem C147_low_liquid_fails (brenth : Brenth) (r0 : ℝ) : (lowRoot flat brenth 1 r0).map Prod.fst = some (some 1000001) ∧ pressure flat.R flat.T flat.b flat.delta flat.epsilon flat.a 1000001 = -999999 / 2 := by
  constructor
  · have e : flat.b * (1 + 1 / 10 ^ 6) = 1000001 := by norm_num [flat]
    have hl : lowLoop flat 1000001 31 1000001 0 r0 = some (1000001, |flat.f 1000001 * (1 / flat.P)|) := by
      rw [lowLoop, if_neg (by norm_num [quad, flat]), if_neg (by norm_num [Par.f, fval, flat])]
      have h1 : ¬ (flat.f1 1000001 ≠ 0) := by norm_num [Par.f1, fder, flat]
      dsimp only
      rw [if_neg h1, if_pos (.inr rfl)]
    unfold lowRoot
    dsimp only
    rw [if_neg (by norm_num), e, hl]
    dsimp only
    rw [if_neg (by norm_num), if_neg (by norm_num [flat])]
    rfl
  · norm_num [flat, pressure]

/-- **C147 fails.** A liquid volume above one and a half times the covolume is lost if the attraction is not tiny and there is none below, although Newton's method found it. -/
theorem C147_low_far_fails (p : Par) (brenth : Brenth) (r0 rel V : ℝ) (hl : lowLoop p (p.b * (1 + 1 / 10 ^ 6)) 31 (p.b * (1 + 1 / 10 ^ 6)) 0 r0 = some (V, rel)) (hV : 3 / 2 * p.b < V)
    (ha : 1 / 10 ^ 5 ≤ p.a) (hb : brenth (p.b * (1 + 1 / 10 ^ 12)) (p.b * (3 / 2)) = none) : lowRoot p brenth 1 r0 = some (none, rel) := by
  unfold lowRoot
  dsimp only
  rw [if_neg (by norm_num), hl]
  dsimp only
  rw [if_neg (by norm_num), if_pos (.inl ⟨rfl, hV⟩)]
  unfold bracketed
  rw [hb, if_neg (not_lt.mpr ha)]
  rfl

/-- **C147.** Volumes from the bracket which solve the equation of state are not moved. -/
theorem C147_bracketed (p : Par) (brenth : Brenth) (V : ℝ) (h : brenth (p.b * (1 + 1 / 10 ^ 12)) (p.b * (3 / 2)) = some V) (hb : V ≠ p.b) (h0 : V ≠ 0) (hq : V ^ 2 + p.delta * V + p.epsilon ≠ 0) (h1 : p.f1 V ≠ 0)
    (hr : pressure p.R p.T p.b p.delta p.epsilon p.a V = p.P) : bracketed p brenth = some V := by
  have hf : p.f V = 0 := by
    have : p.f V = pressure p.R p.T p.b p.delta p.epsilon p.a V - p.P := fval_eq
    linarith
  unfold bracketed
  rw [h]
  dsimp only [Option.orElse]
  rw [if_neg]
  · simp [hf]
  · rw [quad_eq]
    rintro (h2 | h2 | h2 | h2)
    · exact hq h2
    · exact hb (sub_eq_zero.mp h2)
    · exact h1 h2
    · exact h0 h2

example : bracketed ⟨1, 10, 1, 7 / 4, 0, 0, 36⟩ (fun _ _ => none) = none := by
  unfold bracketed
  norm_num

end Verif.VolumeResult
