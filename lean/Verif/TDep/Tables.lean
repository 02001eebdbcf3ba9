import Mathlib.Analysis.SpecialFunctions.Log.Basic
import Mathlib.Data.List.Sort
import Mathlib.Tactic

/-!
# Tables of values (`thermo/utils/t_dependent_property.py` 3400-3474, 3772-3810; `tp_dependent_property.py` 342-514)

C157: an object with a table of data returns the data at the points of the table.

`interp` of the `fluids` package is modelled with its binary search (the one of numpy), whose documentation asks for
increasing coordinates. Splines (`make_interp_spline`) and linear interpolation on a grid (`RegularGridInterpolator`) of
scipy are arbitrary functions that pass through their points when the coordinates increase. Calling
`RectBivariateSpline` with a single argument raises, as it takes two coordinates. A transformation that is `None` is the
identity. An exception is `none`.
-/

namespace Verif.Tables

/-! ## Linear interpolation -/

/-- The loop of `binary_search`: the number of entries up to the place of the key. -/
noncomputable def searchLoop (key : ℝ) (arr : ℕ → ℝ) (imin imax : ℕ) : ℕ :=
  if imin < imax then
    let imid := imin + (imax - imin) / 2
    if arr imid ≤ key then searchLoop key arr (imid + 1) imax else searchLoop key arr imin imid
  else imin
termination_by imax - imin

/-- The line through two points. -/
noncomputable def line (x0 y0 x1 y1 x : ℝ) : ℝ := y0 + (x - x0) * ((y1 - y0) / (x1 - x0))

/-- `interp(x, dx, dy, extrapolate=True)` of `fluids` for `n` points; `none` is an index error. -/
noncomputable def interp (n : ℕ) (dx dy : ℕ → ℝ) (x : ℝ) : Option ℝ :=
  if n = 0 then none
  else if dx (n - 1) < x then
    if n < 2 then none else some (line (dx (n - 1)) (dy (n - 1)) (dx (n - 2)) (dy (n - 2)) x)
  else
    let r := searchLoop x dx 0 n
    if r = 0 then (if n < 2 then none else some (line (dx 0) (dy 0) (dx 1) (dy 1) x))
    else if r = n then some (dy (n - 1))
    else some (line (dx (r - 1)) (dy (r - 1)) (dx r) (dy r) x)

/-- The first `n` entries increase. -/
def Increasing (n : ℕ) (f : ℕ → ℝ) : Prop := ∀ i j, i < j → j < n → f i < f j

theorem searchLoop_spec {key : ℝ} {arr : ℕ → ℝ} {n : ℕ} (h : Increasing n arr) (imin imax : ℕ) (h1 : imin ≤ imax) (h2 : imax ≤ n)
    (hlo : ∀ k < imin, arr k ≤ key) (hhi : ∀ k, imax ≤ k → k < n → key < arr k) :
    searchLoop key arr imin imax ≤ n ∧ (∀ k < searchLoop key arr imin imax, arr k ≤ key)
      ∧ ∀ k, searchLoop key arr imin imax ≤ k → k < n → key < arr k := by
  induction hd : imax - imin using Nat.strong_induction_on generalizing imin imax with
  | _ d ih =>
    unfold searchLoop
    by_cases hlt : imin < imax
    · rw [if_pos hlt]
      dsimp only
      have hm1 : imin ≤ imin + (imax - imin) / 2 := by omega
      have hm2 : imin + (imax - imin) / 2 < imax := by omega
      generalize imin + (imax - imin) / 2 = imid at hm1 hm2
      by_cases hc : arr imid ≤ key
      · rw [if_pos hc]
        refine ih (imax - (imid + 1)) (by omega) (imid + 1) imax (by omega) h2 ?_ hhi rfl
        intro k hk
        rcases Nat.lt_succ_iff_lt_or_eq.mp hk with hk | rfl
        · exact (h k imid hk (by omega)).le.trans hc
        · exact hc
      · rw [if_neg hc]
        push Not at hc
        refine ih (imid - imin) (by omega) imin imid hm1 (by omega) hlo ?_ rfl
        intro k hk hkn
        rcases Nat.eq_or_lt_of_le hk with rfl | hk
        · exact hc
        · exact hc.trans (h imid k hk hkn)
    · rw [if_neg hlt]
      obtain rfl : imin = imax := by omega
      exact ⟨h2, hlo, hhi⟩

theorem searchLoop_above {key : ℝ} {arr : ℕ → ℝ} (imin imax : ℕ) (h : ∀ k, imin ≤ k → k < imax → key < arr k) :
    searchLoop key arr imin imax = imin := by
  induction hd : imax - imin using Nat.strong_induction_on generalizing imax with
  | _ d ih =>
    unfold searchLoop
    by_cases hlt : imin < imax
    · rw [if_pos hlt]
      dsimp only
      have hm1 : imin ≤ imin + (imax - imin) / 2 := by omega
      have hm2 : imin + (imax - imin) / 2 < imax := by omega
      generalize imin + (imax - imin) / 2 = imid at hm1 hm2
      rw [if_neg (not_le.mpr (h imid hm1 hm2))]
      exact ih (imid - imin) (by omega) imid (fun k hk hk' => h k hk (by omega)) rfl
    · rw [if_neg hlt]

/-- **C157.** With increasing coordinates, linear interpolation is the line through the two neighbouring points. -/
theorem C157_between {n : ℕ} {dx dy : ℕ → ℝ} (h : Increasing n dx) {k : ℕ} (hk : k + 1 < n) {x : ℝ} (h1 : dx k ≤ x)
    (h2 : x < dx (k + 1)) : interp n dx dy x = some (line (dx k) (dy k) (dx (k + 1)) (dy (k + 1)) x) := by
  obtain ⟨a1, a2, a3⟩ := searchLoop_spec (key := x) h 0 n (Nat.zero_le n) le_rfl (by simp) (fun k hk hk' => absurd hk' (by omega))
  have hle : ¬ dx (n - 1) < x := by
    rw [not_lt]
    rcases Nat.eq_or_lt_of_le (show k + 1 ≤ n - 1 by omega) with he | hl
    · rw [← he]; exact h2.le
    · exact (h2.trans (h _ _ hl (by omega))).le
  have hr : searchLoop x dx 0 n = k + 1 := by
    generalize searchLoop x dx 0 n = r at a1 a2 a3
    rcases lt_trichotomy r (k + 1) with hr | hr | hr
    · exact absurd (a3 k (by omega) (by omega)) (not_lt.mpr h1)
    · exact hr
    · exact absurd (a2 (k + 1) hr) (not_le.mpr h2)
  unfold interp
  rw [if_neg (by omega), if_neg hle]
  dsimp only
  rw [hr, if_neg (by omega), if_neg (by omega)]
  rfl

/-- **C157.** With increasing coordinates, linear interpolation passes through every point. -/
theorem C157_points {n : ℕ} {dx dy : ℕ → ℝ} (h : Increasing n dx) {k : ℕ} (hk : k < n) : interp n dx dy (dx k) = some (dy k) := by
  by_cases hl : k + 1 < n
  · rw [C157_between h hl le_rfl (h k (k + 1) (by omega) hl)]
    simp [line]
  · obtain rfl : k = n - 1 := by omega
    obtain ⟨a1, a2, a3⟩ := searchLoop_spec (key := dx (n - 1)) h 0 n (Nat.zero_le n) le_rfl (by simp)
      (fun k hk hk' => absurd hk' (by omega))
    have hr : searchLoop (dx (n - 1)) dx 0 n = n := by
      generalize searchLoop (dx (n - 1)) dx 0 n = r at a1 a2 a3
      by_contra hne
      exact absurd (a3 (n - 1) (by omega) (by omega)) (lt_irrefl _)
    unfold interp
    rw [if_neg (by omega), if_neg (lt_irrefl _)]
    dsimp only
    rw [hr, if_neg (by omega), if_pos rfl]

/-- **C157.** Beyond the points it is the line through the last two, or the first two. -/
theorem C157_beyond {n : ℕ} {dx dy : ℕ → ℝ} (h : Increasing n dx) (hn : 2 ≤ n) (x : ℝ) :
    (dx (n - 1) < x → interp n dx dy x = some (line (dx (n - 1)) (dy (n - 1)) (dx (n - 2)) (dy (n - 2)) x))
      ∧ (x < dx 0 → interp n dx dy x = some (line (dx 0) (dy 0) (dx 1) (dy 1) x)) := by
  unfold interp
  rw [if_neg (by omega)]
  constructor
  · intro hx
    rw [if_pos hx, if_neg (by omega)]
  · intro hx
    have h0 := h 0 (n - 1) (by omega) (by omega)
    rw [if_neg (not_lt.mpr (hx.trans h0).le)]
    dsimp only
    rw [searchLoop_above 0 n, if_pos rfl, if_neg (by omega)]
    intro k _ hk
    rcases Nat.eq_zero_or_pos k with rfl | hp
    · exact hx
    · exact hx.trans (h 0 k hp hk)

/-- **C157.** In other words: a coordinate that mixes two neighbouring coordinates has the same mixture of their values; beyond the
points the mixture is of the last two, or the first two. -/
theorem C157_affine {n : ℕ} {dx dy : ℕ → ℝ} (h : Increasing n dx) {k : ℕ} (hk : k + 1 < n) (s : ℝ)
    (hs : (0 ≤ s ∨ k = 0) ∧ (s < 1 ∨ k + 2 = n)) :
    interp n dx dy ((1 - s) * dx k + s * dx (k + 1)) = some ((1 - s) * dy k + s * dy (k + 1)) := by
  have hd := h k (k + 1) (by omega) hk
  have hne : dx (k + 1) - dx k ≠ 0 := by linarith
  have hne' : dx k - dx (k + 1) ≠ 0 := by linarith
  have e1 : line (dx k) (dy k) (dx (k + 1)) (dy (k + 1)) ((1 - s) * dx k + s * dx (k + 1)) = (1 - s) * dy k + s * dy (k + 1) := by
    unfold line
    field_simp
    ring
  have e2 : line (dx (k + 1)) (dy (k + 1)) (dx k) (dy k) ((1 - s) * dx k + s * dx (k + 1)) = (1 - s) * dy k + s * dy (k + 1) := by
    unfold line
    field_simp
    ring
  by_cases h0 : 0 ≤ s
  · by_cases h1 : s < 1
    · rw [C157_between h hk (by nlinarith) (by nlinarith), e1]
    · obtain rfl : n = k + 2 := (hs.2.resolve_left h1).symm
      rcases (not_lt.mp h1).eq_or_lt with rfl | h1
      · have := C157_points (dy := dy) h hk
        rw [show (1 - (1 : ℝ)) * dx k + 1 * dx (k + 1) = dx (k + 1) by ring, this]
        congr 1
        ring
      · rw [(C157_beyond h (by omega) _).1 (by show dx (k + 1) < _; nlinarith)]
        exact congrArg some e2
  · obtain rfl : k = 0 := hs.1.resolve_left h0
    rw [(C157_beyond h (by omega) _).2 (by show _ < dx 0; nlinarith)]
    exact congrArg some e1

example : Increasing 3 (fun k => 300 + 50 * (k : ℝ)) := fun i j hij _ => by
  have : (i : ℝ) < j := by exact_mod_cast hij
  linarith

/-! ## Tables of temperature -/

/-- Transformations of a class: of temperature, of the property, and back. -/
structure Maps where
  (x y yinv : ℝ → ℝ)

/-- No transformation (most classes). -/
def plain : Maps := ⟨id, id, id⟩

/-- `VaporPressure` 318-336, `SublimationPressure` 631-633, `ViscosityLiquid` 390-408. -/
noncomputable def inverseT : Maps := ⟨fun T => 1 / T, Real.log, Real.exp⟩

/-- A series of `n` temperatures and values. -/
structure Table where
  n : ℕ
  (Ts vals : ℕ → ℝ)

/-- `add_tabular_data` (3796-3801), with the check of the values as a flag. -/
def accepted (t : Table) (feasible : Bool) : Prop := feasible = true ∧ ∀ i, i + 1 < t.n → t.Ts i ≤ t.Ts (i + 1)

/-- **C157.** A table is accepted exactly when its values are and no temperature is below an earlier one. -/
theorem C157_accepted (t : Table) (feasible : Bool) :
    accepted t feasible ↔ feasible = true ∧ ¬ ∃ i j, i < j ∧ j < t.n ∧ t.Ts j < t.Ts i := by
  unfold accepted
  refine and_congr_right fun _ => ⟨?_, fun h i hi => not_lt.mp fun hlt => h ⟨i, i + 1, by omega, hi, hlt⟩⟩
  rintro h ⟨i, j, hij, hj, hlt⟩
  have hle : ∀ d, i + d < t.n → t.Ts i ≤ t.Ts (i + d) := by
    intro d
    induction d with
    | zero => exact fun _ => le_rfl
    | succ d ih => exact fun hd => (ih (by omega)).trans (h (i + d) hd)
  have := hle (j - i) (by omega)
  rw [show i + (j - i) = j by omega] at this
  exact absurd hlt (not_lt.mpr this)

example : ¬ accepted ⟨2, fun k => 300 - 50 * (k : ℝ), fun _ => 1⟩ true := by
  rw [C157_accepted]
  rintro ⟨_, h⟩
  exact h ⟨0, 1, by norm_num, by norm_num, by norm_num⟩

/-- Points given to the spline (3436-3451). -/
noncomputable def points (m : Maps) (t : Table) : List (ℝ × ℝ) :=
  ((List.range t.n).map fun k : ℕ => (m.x (t.Ts k), m.y (t.vals k))).insertionSort (fun a b => a.1 ≤ b.1)

/-- `interpolate` (3400-3474). `spline` is `make_interp_spline`. The points given to `interp` are not sorted (3447). -/
noncomputable def interpolate (spline : List (ℝ × ℝ) → ℝ → ℝ) (m : Maps) (t : Table) (T : ℝ) : Option ℝ :=
  let linear := T < t.Ts 0 ∨ t.Ts (t.n - 1) < T ∨ t.n < 5
  open Classical in
  if linear then (interp t.n (fun k => m.x (t.Ts k)) (fun k => m.y (t.vals k)) (m.x T)).map m.yinv
  else some (m.yinv (spline (points m t) (m.x T)))

/-- A spline passes through its points if their coordinates increase. -/
def Through (spline : List (ℝ × ℝ) → ℝ → ℝ) : Prop :=
  ∀ l : List (ℝ × ℝ), l.Pairwise (fun a b => a.1 < b.1) → ∀ p ∈ l, spline l p.1 = p.2

theorem points_mem (m : Maps) (t : Table) {k : ℕ} (hk : k < t.n) : (m.x (t.Ts k), m.y (t.vals k)) ∈ points m t := by
  unfold points
  rw [List.mem_insertionSort]
  exact List.mem_map.mpr ⟨k, List.mem_range.mpr hk, rfl⟩

theorem points_sorted (m : Maps) (t : Table) (h : ∀ i j, i < t.n → j < t.n → i ≠ j → m.x (t.Ts i) ≠ m.x (t.Ts j)) :
    (points m t).Pairwise (fun a b => a.1 < b.1) := by
  have h1 : (points m t).Pairwise (fun a b => a.1 ≤ b.1) := by
    have : Std.Total (fun a b : ℝ × ℝ => a.1 ≤ b.1) := ⟨fun a b => le_total a.1 b.1⟩
    have : IsTrans (ℝ × ℝ) (fun a b : ℝ × ℝ => a.1 ≤ b.1) := ⟨fun _ _ _ => le_trans⟩
    exact List.pairwise_insertionSort _ _
  have h2 : ((points m t).map Prod.fst).Nodup := by
    have hp : (points m t).Perm ((List.range t.n).map fun k : ℕ => (m.x (t.Ts k), m.y (t.vals k))) :=
      List.perm_insertionSort _ _
    rw [(hp.map Prod.fst).nodup_iff, List.map_map]
    refine List.Nodup.map_on ?_ List.nodup_range
    intro i hi j hj hij
    by_contra hne
    exact h i j (List.mem_range.mp hi) (List.mem_range.mp hj) hne hij
  have h3 : (points m t).Pairwise (fun a b => a.1 ≠ b.1) := by
    rw [List.Nodup, List.pairwise_map] at h2
    exact h2
  exact (h1.and h3).imp fun hab => lt_of_le_of_ne hab.1 hab.2

/-- **C157.** A table of at least five points returns its values, whether or not the transformation of temperature keeps the
order, if it separates the temperatures. -/
theorem C157_table_large {spline : List (ℝ × ℝ) → ℝ → ℝ} (hs : Through spline) (m : Maps) (t : Table) (h5 : 5 ≤ t.n)
    (hT : Increasing t.n t.Ts) (hx : ∀ i j, i < t.n → j < t.n → i ≠ j → m.x (t.Ts i) ≠ m.x (t.Ts j))
    {k : ℕ} (hk : k < t.n) (hy : m.yinv (m.y (t.vals k)) = t.vals k) :
    interpolate spline m t (t.Ts k) = some (t.vals k) := by
  have h0 : ¬ (t.Ts k < t.Ts 0 ∨ t.Ts (t.n - 1) < t.Ts k ∨ t.n < 5) := by
    rintro (h | h | h)
    · rcases Nat.eq_zero_or_pos k with rfl | hp
      · exact lt_irrefl _ h
      · exact lt_asymm h (hT 0 k hp hk)
    · rcases Nat.eq_or_lt_of_le (show k ≤ t.n - 1 by omega) with he | hl
      · rw [← he] at h; exact lt_irrefl _ h
      · exact lt_asymm h (hT k (t.n - 1) hl (by omega))
    · omega
  unfold interpolate
  dsimp only
  rw [if_neg h0, hs _ (points_sorted m t hx) _ (points_mem m t hk)]
  exact congrArg some hy

example : ∃ t : Table, t.n = 5 ∧ Increasing t.n t.Ts
    ∧ (∀ i j, i < t.n → j < t.n → i ≠ j → inverseT.x (t.Ts i) ≠ inverseT.x (t.Ts j))
    ∧ ∀ k, inverseT.yinv (inverseT.y (t.vals k)) = t.vals k := by
  refine ⟨⟨5, fun k => 1 + (k : ℝ), fun k => 1 + (k : ℝ)⟩, rfl, fun i j hij _ => ?_, fun i j _ _ hij h => hij ?_, fun k => ?_⟩
  · have : (i : ℝ) < j := by exact_mod_cast hij
    show (1 : ℝ) + i < 1 + j
    linarith
  · have h' : (1 : ℝ) / (1 + (i : ℝ)) = 1 / (1 + (j : ℝ)) := h
    rw [one_div, one_div, inv_inj] at h'
    exact_mod_cast add_left_cancel h'
  · exact Real.exp_log (by positivity)

/-- The contract of a spline can be met. -/
example : ∃ spline, Through spline := by
  classical
  refine ⟨fun l x => if h : ∃ p ∈ l, p.1 = x then h.choose.2 else 0, fun l hl p hp => ?_⟩
  have h : ∃ q ∈ l, q.1 = p.1 := ⟨p, hp, rfl⟩
  show (if h : ∃ q ∈ l, q.1 = p.1 then h.choose.2 else 0) = p.2
  rw [dif_pos h]
  obtain ⟨h1, h2⟩ := h.choose_spec
  by_contra hne
  have hq : h.choose ≠ p := fun e => hne (by rw [e])
  have h3 : l.Pairwise fun a b => a.1 ≠ b.1 := hl.imp fun h => h.ne
  have : Std.Symm fun a b : ℝ × ℝ => a.1 ≠ b.1 := ⟨fun _ _ h => h.symm⟩
  exact h3.forall h1 hp hq h2

/-- **C157.** A table of fewer points returns its values if the transformation of temperature increases. -/
theorem C157_table_small (spline : List (ℝ × ℝ) → ℝ → ℝ) (m : Maps) (t : Table) (h5 : t.n < 5)
    (hx : Increasing t.n fun k => m.x (t.Ts k)) {k : ℕ} (hk : k < t.n) (hy : m.yinv (m.y (t.vals k)) = t.vals k) :
    interpolate spline m t (t.Ts k) = some (t.vals k) := by
  unfold interpolate
  dsimp only
  rw [if_pos (Or.inr (Or.inr h5)), C157_points (dx := fun k => m.x (t.Ts k)) hx hk]
  exact congrArg some hy

example : ∃ t : Table, t.n = 3 ∧ Increasing t.n (fun k => plain.x (t.Ts k)) ∧ accepted t true := by
  refine ⟨⟨3, fun k => 300 + 50 * (k : ℝ), fun _ => 1⟩, rfl, fun i j hij _ => ?_, rfl, fun i _ => ?_⟩
  · have : (i : ℝ) < j := by exact_mod_cast hij
    show (300 : ℝ) + 50 * i < 300 + 50 * j
    linarith
  · push_cast
    linarith

/-- **C157 fails.** With the transformation of vapor pressures and liquid viscosities, the points of a table of three or four
are given to the interpolation in decreasing order. Everywhere below the last temperature it takes the line through the last two
points; at the last temperature the line through the first two. -/
theorem C157_inverse_fails (spline : List (ℝ × ℝ) → ℝ → ℝ) (t : Table) (h3 : 3 ≤ t.n) (h5 : t.n < 5) (h0 : 0 < t.Ts 0)
    (hT : Increasing t.n t.Ts) :
    (∀ T, 0 < T → T < t.Ts (t.n - 1) → interpolate spline inverseT t T
      = some (Real.exp (line (1 / t.Ts (t.n - 1)) (Real.log (t.vals (t.n - 1))) (1 / t.Ts (t.n - 2))
          (Real.log (t.vals (t.n - 2))) (1 / T))))
      ∧ interpolate spline inverseT t (t.Ts (t.n - 1))
        = some (Real.exp (line (1 / t.Ts 0) (Real.log (t.vals 0)) (1 / t.Ts 1) (Real.log (t.vals 1)) (1 / t.Ts (t.n - 1)))) := by
  have hpos : ∀ k < t.n, 0 < t.Ts k := by
    intro k hk
    rcases Nat.eq_zero_or_pos k with rfl | hp
    · exact h0
    · exact h0.trans (hT 0 k hp hk)
  constructor
  · intro T hT0 hTl
    unfold interpolate
    dsimp only
    rw [if_pos (Or.inr (Or.inr h5))]
    unfold interp inverseT
    dsimp only
    rw [if_neg (by omega), if_pos (one_div_lt_one_div_of_lt hT0 hTl), if_neg (by omega)]
    rfl
  · unfold interpolate
    dsimp only
    rw [if_pos (Or.inr (Or.inr h5))]
    unfold interp inverseT
    dsimp only
    rw [if_neg (by omega), if_neg (lt_irrefl _)]
    have hr : searchLoop (1 / t.Ts (t.n - 1)) (fun k => 1 / t.Ts k) 0 t.n = 0 := by
      have e : searchLoop (1 / t.Ts (t.n - 1)) (fun k => 1 / t.Ts k) 0 t.n
          = searchLoop (1 / t.Ts (t.n - 1)) (fun k => 1 / t.Ts k) 0 (0 + (t.n - 0) / 2) := by
        rw [searchLoop, if_pos (by omega)]
        dsimp only
        rw [if_neg]
        rw [not_le]
        exact one_div_lt_one_div_of_lt (hpos _ (by omega)) (hT _ _ (by omega) (by omega))
      rw [e]
      refine searchLoop_above _ _ fun k _ hk => ?_
      exact one_div_lt_one_div_of_lt (hpos _ (by omega)) (hT _ _ (by omega) (by omega))
    rw [hr, if_pos rfl, if_neg (by omega)]
    rfl

/-- **C157 fails.** So a table of vapor pressures returns its first value only if the points lie on a line: here they do
not. -/
theorem C157_vapor_pressure_fails (spline : List (ℝ × ℝ) → ℝ → ℝ) :
    ∃ t : Table, t.n = 3 ∧ accepted t true ∧ Increasing t.n t.Ts ∧ (∀ k, 0 < t.vals k)
      ∧ interpolate spline inverseT t (t.Ts 0) ≠ some (t.vals 0)
      ∧ interpolate spline inverseT t (t.Ts 2) ≠ some (t.vals 2) := by
  have hT : Increasing 3 (fun k => 1 + (k : ℝ)) := fun i j hij _ => by
    have : (i : ℝ) < j := by exact_mod_cast hij
    linarith
  let t : Table := ⟨3, fun k => 1 + (k : ℝ), fun k => if k = 1 then 1 else Real.exp 1⟩
  obtain ⟨h1, h2⟩ := C157_inverse_fails spline t le_rfl (by decide) (by norm_num [t]) hT
  refine ⟨t, rfl, ⟨rfl, fun i _ => ?_⟩, hT, ?_, ?_, ?_⟩
  · show (1 : ℝ) + i ≤ 1 + ((i + 1 : ℕ) : ℝ)
    push_cast
    linarith
  · intro k
    show 0 < if k = 1 then (1 : ℝ) else Real.exp 1
    split_ifs
    · exact one_pos
    · exact Real.exp_pos 1
  · rw [h1 (t.Ts 0) (by norm_num [t]) (by norm_num [t])]
    intro h
    have h3 := Option.some.inj h
    simp only [t] at h3
    norm_num [line] at h3
  · have e : t.Ts 2 = t.Ts (t.n - 1) := rfl
    rw [e, h2]
    intro h
    have h3 := Option.some.inj h
    simp only [t] at h3
    norm_num [line] at h3

/-- **C157 fails.** A repeated temperature is accepted, although of two values at one temperature only one can be returned. -/
theorem C157_repeated_fails (spline : List (ℝ × ℝ) → ℝ → ℝ) (m : Maps) :
    ∃ t : Table, accepted t true ∧ t.Ts 0 = t.Ts 1 ∧ t.vals 0 ≠ t.vals 1
      ∧ ¬ (interpolate spline m t (t.Ts 0) = some (t.vals 0) ∧ interpolate spline m t (t.Ts 1) = some (t.vals 1)) := by
  refine ⟨⟨2, fun _ => 300, fun k => if k = 0 then 1 else 2⟩, ⟨rfl, fun i _ => le_rfl⟩, rfl, by norm_num, ?_⟩
  rintro ⟨h1, h2⟩
  have h3 := h1.symm.trans h2
  norm_num at h3

/-! ## Tables of temperature and pressure -/

/-- A grid of `nT` temperatures and `nP` pressures; `vals p t`. -/
structure Grid where
  (nT nP : ℕ)
  (Ts Ps : ℕ → ℝ)
  vals : ℕ → ℕ → ℝ

/-- Outside of the grid (451, 500). -/
def Grid.Outside (g : Grid) (T P : ℝ) : Prop := T < g.Ts 0 ∨ g.Ts (g.nT - 1) < T ∨ P < g.Ps 0 ∨ g.Ps (g.nP - 1) < P

/-- `interpolate_P` (419-514); `linear` is the linear interpolation with the transformations of the class applied. From five
pressures on, a spline is called with the pair of coordinates as its only argument (503, 509). -/
noncomputable def interpolateP (linear : Grid → ℝ → ℝ → ℝ) (permitted : Bool) (g : Grid) (T P : ℝ) : Option ℝ :=
  open Classical in
  if permitted = false ∧ g.Outside T P then none
  else if g.Outside T P ∨ g.nP < 5 then some (linear g T P)
  else none

/-- `test_method_validity_P` (404-409). -/
def validP (permitted : Bool) (g : Grid) (T P : ℝ) : Prop :=
  permitted = true ∨ (g.Ts 0 < T ∧ T < g.Ts (g.nT - 1) ∧ g.Ps 0 < P ∧ P < g.Ps (g.nP - 1))

/-- `TP_dependent_property` with the table selected. -/
noncomputable def valueP (linear : Grid → ℝ → ℝ → ℝ) (permitted : Bool) (g : Grid) (T P : ℝ) : Option ℝ :=
  open Classical in
  if validP permitted g T P then interpolateP linear permitted g T P else none

/-- Linear interpolation passes through the points of the grid. -/
def ThroughGrid (linear : Grid → ℝ → ℝ → ℝ) : Prop :=
  ∀ g : Grid, Increasing g.nT g.Ts → Increasing g.nP g.Ps → ∀ i < g.nT, ∀ j < g.nP, linear g (g.Ts i) (g.Ps j) = g.vals j i

/-- A point of the grid lies within it. -/
theorem inside {g : Grid} (h1 : Increasing g.nT g.Ts) (h2 : Increasing g.nP g.Ps) {i j : ℕ} (hi : i < g.nT) (hj : j < g.nP) :
    ¬ g.Outside (g.Ts i) (g.Ps j) := by
  have lo : ∀ (n : ℕ) (f : ℕ → ℝ) (k : ℕ), Increasing n f → k < n → ¬ f k < f 0 := by
    intro n f k hf hk h
    rcases Nat.eq_zero_or_pos k with rfl | hp
    · exact lt_irrefl _ h
    · exact lt_asymm h (hf 0 k hp hk)
  have up : ∀ (n : ℕ) (f : ℕ → ℝ) (k : ℕ), Increasing n f → k < n → ¬ f (n - 1) < f k := by
    intro n f k hf hk h
    rcases Nat.eq_or_lt_of_le (show k ≤ n - 1 by omega) with he | hl
    · rw [← he] at h; exact lt_irrefl _ h
    · exact lt_asymm h (hf k (n - 1) hl (by omega))
  rintro (h | h | h | h)
  · exact lo _ _ _ h1 hi h
  · exact up _ _ _ h1 hi h
  · exact lo _ _ _ h2 hj h
  · exact up _ _ _ h2 hj h

/-- **C157, partial.** A grid of fewer than five pressures returns its values, if extrapolation is permitted or the point is
not on its border. Missing: larger grids and points on the border. -/
theorem C157_grid_partial {linear : Grid → ℝ → ℝ → ℝ} (hl : ThroughGrid linear) (permitted : Bool) (g : Grid)
    (h1 : Increasing g.nT g.Ts) (h2 : Increasing g.nP g.Ps) (h5 : g.nP < 5) {i j : ℕ} (hi : i < g.nT) (hj : j < g.nP)
    (hb : permitted = true ∨ (0 < i ∧ i < g.nT - 1 ∧ 0 < j ∧ j < g.nP - 1)) :
    valueP linear permitted g (g.Ts i) (g.Ps j) = some (g.vals j i) := by
  have hin := inside h1 h2 hi hj
  have hv : validP permitted g (g.Ts i) (g.Ps j) := by
    rcases hb with hb | ⟨a, b, c, d⟩
    · exact Or.inl hb
    · exact Or.inr ⟨h1 0 i a hi, h1 i _ b (by omega), h2 0 j c hj, h2 j _ d (by omega)⟩
  unfold valueP interpolateP
  rw [if_pos hv, if_neg (fun h => hin h.2), if_pos (Or.inr h5), hl g h1 h2 i hi j hj]

example : ∃ g : Grid, Increasing g.nT g.Ts ∧ Increasing g.nP g.Ps ∧ g.nP < 5 ∧ 1 < g.nT - 1 ∧ 1 < g.nP - 1 := by
  refine ⟨⟨3, 3, fun k => (k : ℝ), fun k => (k : ℝ), fun _ _ => 1⟩, fun i j h _ => ?_, fun i j h _ => ?_, by decide, by decide, by decide⟩ <;>
  · show (i : ℝ) < j
    exact_mod_cast h

/-- **C157 fails.** A grid of five pressures or more has no value at any point within it, although it has values outside. -/
theorem C157_grid_large_fails (linear : Grid → ℝ → ℝ → ℝ) (permitted : Bool) (g : Grid) (h5 : 5 ≤ g.nP) :
    (∀ T P, ¬ g.Outside T P → valueP linear permitted g T P = none)
      ∧ ∀ T P, g.Outside T P → valueP linear true g T P = some (linear g T P) := by
  constructor
  · intro T P h
    have e : interpolateP linear permitted g T P = none := by
      unfold interpolateP
      rw [if_neg (fun hc => h hc.2), if_neg (by rintro (hc | hc); exacts [h hc, by omega])]
    unfold valueP
    rw [e, ite_self]
  · intro T P h
    unfold valueP interpolateP
    have hv : validP true g T P := Or.inl rfl
    rw [if_pos hv, if_neg (by simp), if_pos (Or.inl h)]

/-- **C157 fails.** Without extrapolation the points on the border of the grid have no value, although `interpolate_P` itself
accepts them. -/
theorem C157_border_fails (linear : Grid → ℝ → ℝ → ℝ) (g : Grid) (h1 : Increasing g.nT g.Ts) (h2 : Increasing g.nP g.Ps)
    {i j : ℕ} (hi : i < g.nT) (hj : j < g.nP) (hb : i = 0 ∨ i = g.nT - 1 ∨ j = 0 ∨ j = g.nP - 1) :
    valueP linear false g (g.Ts i) (g.Ps j) = none
      ∧ (g.nP < 5 → interpolateP linear false g (g.Ts i) (g.Ps j) = some (linear g (g.Ts i) (g.Ps j))) := by
  constructor
  · have hv : ¬ validP false g (g.Ts i) (g.Ps j) := by
      rintro (h | ⟨a, b, c, d⟩)
      · exact absurd h (by decide)
      · rcases hb with rfl | rfl | rfl | rfl
        · exact lt_irrefl _ a
        · exact lt_irrefl _ b
        · exact lt_irrefl _ c
        · exact lt_irrefl _ d
    unfold valueP
    rw [if_neg hv]
  · intro h5
    unfold interpolateP
    rw [if_neg (fun h => inside h1 h2 hi hj h.2), if_pos (Or.inr h5)]

/-! ## Names of tables -/

/-- Names: chosen by the user, or the number given by the code. -/
inductive Name | given (s : String) | series (k : ℕ)
  deriving DecidableEq

/-- The tables of an object: names of temperature series and of pressure series, as dictionaries. -/
structure Names where
  (tab tabP : List Name)

/-- Adding a key to a dictionary. -/
def put (l : List Name) (n : Name) : List Name := if n ∈ l then l else l ++ [n]

/-- `add_tabular_data` (3803-3805). -/
def addT (o : Names) (name : Option Name) : Names := { o with tab := put o.tab (name.getD (.series o.tab.length)) }

/-- `add_tabular_data_P` (378-380): numbered by the temperature series. -/
def addP (o : Names) (name : Option Name) : Names := { o with tabP := put o.tabP (name.getD (.series o.tab.length)) }

/-- **C157.** Unnamed series of temperature all get their own name. -/
theorem C157_names (o : Names) (h : o.tab = []) (n : ℕ) :
    ((List.replicate n none).foldl addT o).tab = (List.range n).map Name.series := by
  induction n with
  | zero => simpa using h
  | succ n ih =>
    rw [List.replicate_succ', List.foldl_append, List.range_succ, List.map_append, ← ih]
    simp only [List.foldl_cons, List.foldl_nil, addT, put, Option.getD_none]
    rw [if_neg]
    · rw [ih]; simp
    · rw [ih]; simp

/-- **C157 fails.** Unnamed series of pressure replace one another; so does an unnamed series of temperature a series the
user named like it. -/
theorem C157_names_fails (o : Names) :
    (o.tabP = [] → ((addP (addP o none) none).tabP).length = 1)
      ∧ (o.tab = [] → ((addT (addT o (some (.series 1))) none).tab).length = 1) := by
  constructor
  · intro h
    simp [addP, put, h]
  · intro h
    simp [addT, put, h]

end Verif.Tables
