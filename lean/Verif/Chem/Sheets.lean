import Mathlib.Tactic
import Mathlib.Data.List.Sort
import Mathlib.Data.List.Dedup
import Mathlib.Data.String.Basic

/-!
# Data sheets and legal lists (`thermo/datasheet.py` 39-317, `thermo/law.py` 48-360)

* `tabulate_solid`, `tabulate_liq`, `tabulate_gas` (datasheet.py 39-167): range of temperatures and columns;
* `tabulate_constants` (170-231) and `tabulate_streams` (234-317): rows by name;
* `legal_status` (law.py 120-253), `load_law_data` (74-100), `economic_status` (310-360), `load_economic_data` (257-300).

Simplified: a chemical is a function from the name of an attribute and a temperature to a value; a data frame is its list of
labelled columns (or rows); files are the lists of their entries; the conversion of a CAS number to an integer is a parameter.
-/

namespace Verif.Sheets

/-! ## Tables by temperature (datasheet.py 39-167) -/

/-- A value Python takes for true: present and not zero (44, 45, 76, 77, ...). -/
def truthy : Option ℚ → Option ℚ
  | some x => if x = 0 then none else some x
  | none => none

/-- Lowest temperature of `tabulate_solid` (44-48). -/
def solidMin (Tm Tmin : Option ℚ) : ℚ :=
  match truthy Tmin with
  | some T => T
  | none => match truthy Tm with
    | some T => max (T - 100) (1 / 100)
    | none => 150

/-- Highest temperature of `tabulate_solid` (49-53). -/
def solidMax (Tm Tmax : Option ℚ) : ℚ :=
  match truthy Tmax with
  | some T => T
  | none => (truthy Tm).getD 350

/-- Lowest temperature of `tabulate_liq` and `tabulate_gas` (76-80, 128-132). -/
def fluidMin (Tm Tmin : Option ℚ) : ℚ :=
  match truthy Tmin with
  | some T => T
  | none => (truthy Tm).getD (27315 / 100)

/-- Highest temperature of `tabulate_liq` and `tabulate_gas` (81-85, 133-137). -/
def fluidMax (Tc Tmax : Option ℚ) : ℚ :=
  match truthy Tmax with
  | some T => T
  | none => (truthy Tc).getD 450

/-- `np.linspace(a, b, n)` (55, 87, 139). -/
def linspace (a b : ℚ) (n : ℕ) : List ℚ := (List.range n).map fun i : ℕ => a + (i : ℚ) * ((b - a) / ((n - 1 : ℕ) : ℚ))

/-- Label of a column and attribute of `Chemical` of `tabulate_solid` (58-63). -/
def solidColumns : List (String × String) :=
  [("Density, kg/m^3", "rhos"), ("Constant-pressure heat capacity, J/kg/K", "Cps")]

/-- Columns of `tabulate_liq` (91-116). -/
def liquidColumns : List (String × String) :=
  [("Saturation pressure, Pa", "Psat"), ("Density, kg/m^3", "rhol"), ("Constant-pressure heat capacity, J/kg/K", "Cpl"),
   ("Heat of vaporization, J/kg", "Hvap"), ("Viscosity, Pa*s", "mul"), ("Thermal conductivity, W/m/K", "kl"),
   ("Surface tension, N/m", "sigma"), ("Prandtl number", "Prl"), ("Thermal diffusivity, m^2/s", "alphal"),
   ("Isobaric expansion, 1/K", "isobaric_expansion_l"), ("Joule-Thompson expansion coefficient, K/Pa", "JTg"),
   ("PermittivityLiquid", "permittivity")]

/-- Columns of `tabulate_gas` (143-163). -/
def gasColumns : List (String × String) :=
  [("Density, kg/m^3", "rhog"), ("Constant-pressure heat capacity, J/kg/K", "Cpg"),
   ("Constant-volume heat capacity, J/kg/K", "Cvg"), ("Viscosity, Pa*s", "mug"), ("Thermal conductivity, W/m/K", "kg"),
   ("Prandtl number", "Prg"), ("Thermal diffusivity, m^2/s", "alphag"), ("Isobaric expansion, 1/K", "isobaric_expansion_g"),
   ("Isentropic exponent", "isentropic_exponent"), ("Joule-Thompson expansion coefficient, K/Pa", "JTg")]

/-- The data frame (56-67, 88-120, 140-167): for every temperature the chemical at that temperature. -/
def frame (columns : List (String × String)) (chem : String → ℚ → Option ℚ) (Ts : List ℚ) : List (String × List (Option ℚ)) :=
  columns.map fun c => (c.1, Ts.map (chem c.2))

/-- The attribute of a phase (`"s"`, `"l"`, `"g"`) a label speaks of. -/
def intended (phase label : String) : String :=
  if label = "Density, kg/m^3" then "rho" ++ phase
  else if label = "Constant-pressure heat capacity, J/kg/K" then "Cp" ++ phase
  else if label = "Constant-volume heat capacity, J/kg/K" then "Cv" ++ phase
  else if label = "Viscosity, Pa*s" then "mu" ++ phase
  else if label = "Thermal conductivity, W/m/K" then "k" ++ phase
  else if label = "Prandtl number" then "Pr" ++ phase
  else if label = "Thermal diffusivity, m^2/s" then "alpha" ++ phase
  else if label = "Isobaric expansion, 1/K" then "isobaric_expansion_" ++ phase
  else if label = "Joule-Thompson expansion coefficient, K/Pa" then "JT" ++ phase
  else if label = "Saturation pressure, Pa" then "Psat"
  else if label = "Heat of vaporization, J/kg" then "Hvap"
  else if label = "Surface tension, N/m" then "sigma"
  else if label = "PermittivityLiquid" then "permittivity"
  else if label = "Isentropic exponent" then "isentropic_exponent"
  else ""

/-- **C151.** Every column has one value for each temperature, the value of its attribute at that temperature. -/
theorem C151_frame (columns : List (String × String)) (chem : String → ℚ → Option ℚ) (Ts : List ℚ) (k : ℕ) (hk : k < columns.length)
    (i : ℕ) (hi : i < Ts.length) :
    ∃ c, (frame columns chem Ts)[k]? = some c ∧ c.1 = columns[k].1 ∧ c.2.length = Ts.length ∧
      c.2[i]? = some (chem columns[k].2 Ts[i]) := by
  refine ⟨(columns[k].1, Ts.map (chem columns[k].2)), ?_, rfl, by simp, by simp [hi]⟩
  simp [frame, hk]

example : 1 < liquidColumns.length ∧ 0 < [(300 : ℚ)].length := by decide

/-- **C151.** The columns for solids and gases, and those for liquids but for one, show the attribute their label names. -/
theorem C151_columns :
    (∀ c ∈ solidColumns, c.2 = intended "s" c.1) ∧ (∀ c ∈ gasColumns, c.2 = intended "g" c.1) ∧
    (∀ c ∈ liquidColumns, c.1 ≠ "Joule-Thompson expansion coefficient, K/Pa" → c.2 = intended "l" c.1) ∧
    (solidColumns.map Prod.fst).Nodup ∧ (liquidColumns.map Prod.fst).Nodup ∧ (gasColumns.map Prod.fst).Nodup := by
  decide +kernel

/-- **C151 fails.** The Joule-Thomson coefficient in the table of a liquid is that of the gas. -/
theorem C151_joule_thomson_fails (chem : String → ℚ → Option ℚ) (Ts : List ℚ) :
    (frame liquidColumns chem Ts)[10]? = some ("Joule-Thompson expansion coefficient, K/Pa", Ts.map (chem "JTg")) ∧
    intended "l" "Joule-Thompson expansion coefficient, K/Pa" = "JTl" := by
  refine ⟨rfl, by decide +kernel⟩

/-- **C151.** The temperatures are as many as asked for, evenly spaced between the ends and in order. -/
theorem C151_temperatures (a b : ℚ) (n : ℕ) (hab : a ≤ b) :
    (linspace a b n).length = n ∧ (∀ T ∈ linspace a b n, a ≤ T ∧ T ≤ b) ∧
    (0 < n → (linspace a b n)[0]? = some a) ∧ (1 < n → (linspace a b n)[n - 1]? = some b) ∧
    (∀ i, i + 1 < n → ∃ s t, (linspace a b n)[i]? = some s ∧ (linspace a b n)[i + 1]? = some t ∧ t - s = (b - a) / (n - 1 : ℕ)) := by
  refine ⟨by simp [linspace], ?_, ?_, ?_, ?_⟩
  · intro T hT
    simp only [linspace, List.mem_map, List.mem_range] at hT
    obtain ⟨i, hi, rfl⟩ := hT
    have hd : (0 : ℚ) ≤ b - a := by linarith
    have h0 : (0 : ℚ) ≤ (b - a) / ((n - 1 : ℕ) : ℚ) := div_nonneg hd (by positivity)
    constructor
    · have : (0 : ℚ) ≤ (i : ℚ) * ((b - a) / ((n - 1 : ℕ) : ℚ)) := mul_nonneg (by positivity) h0
      linarith
    · by_cases hn : n - 1 = 0
      · rw [hn]
        simp
        exact hab
      · have hpos : (0 : ℚ) < ((n - 1 : ℕ) : ℚ) := by exact_mod_cast Nat.pos_of_ne_zero hn
        have hle : (i : ℚ) ≤ ((n - 1 : ℕ) : ℚ) := by exact_mod_cast (by omega : i ≤ n - 1)
        have : (i : ℚ) * ((b - a) / ((n - 1 : ℕ) : ℚ)) ≤ ((n - 1 : ℕ) : ℚ) * ((b - a) / ((n - 1 : ℕ) : ℚ)) :=
          mul_le_mul_of_nonneg_right hle h0
        rw [mul_div_cancel₀ _ hpos.ne'] at this
        linarith
  · intro hn
    simp [linspace, hn]
  · intro hn
    have hpos : ((n - 1 : ℕ) : ℚ) ≠ 0 := by
      have : n - 1 ≠ 0 := by omega
      exact_mod_cast this
    have hlt : n - 1 < n := by omega
    simp only [linspace, List.getElem?_map, List.getElem?_range hlt, Option.map_some, Option.some.injEq]
    rw [mul_div_cancel₀ _ hpos]
    ring
  · intro i hi
    refine ⟨a + i * ((b - a) / ((n - 1 : ℕ) : ℚ)), a + (i + 1 : ℕ) * ((b - a) / ((n - 1 : ℕ) : ℚ)), ?_, ?_, ?_⟩
    · simp [linspace, List.getElem?_range (show i < n by omega)]
    · simp [linspace, List.getElem?_range hi]
    · push_cast
      ring

example : linspace 300 400 3 = [300, 350, 400] := by simp [linspace, List.range_succ]; norm_num

/-- **C151, partial.** Without limits a solid is shown from a temperature not above its melting point up to it, and a fluid from its melting
point up to its critical point. Missing: chemicals with one of the constants unknown, and melting points below 0.01 K. -/
theorem C151_range_partial (Tm Tc : ℚ) (hm : 1 / 100 ≤ Tm) (hc : Tm ≤ Tc) :
    solidMin (some Tm) none ≤ Tm ∧ 0 < solidMin (some Tm) none ∧ Tm - 100 ≤ solidMin (some Tm) none ∧
    solidMax (some Tm) none = Tm ∧ fluidMin (some Tm) none = Tm ∧ fluidMax (some Tc) none = Tc := by
  have h1 : Tm ≠ 0 := by linarith
  have h2 : Tc ≠ 0 := by linarith
  simp only [solidMin, solidMax, fluidMin, fluidMax, truthy, if_neg h1, if_neg h2, Option.getD_some, and_self, and_true]
  refine ⟨max_le (by linarith) hm, lt_of_lt_of_le (by norm_num) (le_max_right _ _), le_max_left _ _⟩

example : (1 / 100 : ℚ) ≤ 273 ∧ (273 : ℚ) ≤ 647 := by norm_num

/-- Limits that are given and are not zero are used. -/
theorem C151_given (Tm Tc : Option ℚ) (T : ℚ) (h : T ≠ 0) :
    solidMin Tm (some T) = T ∧ solidMax Tm (some T) = T ∧ fluidMin Tm (some T) = T ∧ fluidMax Tc (some T) = T := by
  simp [solidMin, solidMax, fluidMin, fluidMax, truthy, h]

example : (300 : ℚ) ≠ 0 := by norm_num

/-- **C151 fails.** A lower limit of zero is not used, and with an unknown melting point and a critical point below 273.15 K
all temperatures but the last are above the critical point. -/
theorem C151_range_fails (Tm Tc : ℚ) (hm : Tm ≠ 0) (h0 : Tc ≠ 0) (hc : Tc < 27315 / 100) :
    fluidMin (some Tm) (some 0) = Tm ∧ fluidMax (some Tc) none < fluidMin none none ∧
    ∀ n i, i + 1 < n → ∃ T, (linspace (fluidMin none none) (fluidMax (some Tc) none) n)[i]? = some T ∧ Tc < T := by
  refine ⟨by simp [fluidMin, truthy, hm], by simpa [fluidMin, fluidMax, truthy, h0] using hc, ?_⟩
  intro n i hi
  have e1 : fluidMin none none = 27315 / 100 := rfl
  have e2 : fluidMax (some Tc) none = Tc := by simp [fluidMax, truthy, h0]
  rw [e1, e2]
  refine ⟨27315 / 100 + i * ((Tc - 27315 / 100) / ((n - 1 : ℕ) : ℚ)), ?_, ?_⟩
  · simp [linspace, List.getElem?_range (show i < n by omega)]
  · have hpos : (0 : ℚ) < ((n - 1 : ℕ) : ℚ) := by
      have : 0 < n - 1 := by omega
      exact_mod_cast this
    have hlt : (i : ℚ) / ((n - 1 : ℕ) : ℚ) < 1 := by
      rw [div_lt_one hpos]
      exact_mod_cast (by omega : i < n - 1)
    have e : 27315 / 100 + (i : ℚ) * ((Tc - 27315 / 100) / ((n - 1 : ℕ) : ℚ)) - Tc
        = (27315 / 100 - Tc) * (1 - (i : ℚ) / ((n - 1 : ℕ) : ℚ)) := by
      field_simp
      ring
    have : 0 < (27315 / 100 - Tc) * (1 - (i : ℚ) / ((n - 1 : ℕ) : ℚ)) := mul_pos (by linarith) (by linarith)
    linarith

example : (14 : ℚ) ≠ 0 ∧ (33 : ℚ) ≠ 0 ∧ (33 : ℚ) < 27315 / 100 := by norm_num

/-! ## Tables by name (datasheet.py 170-317) -/

/-- Assignment to a key of an ordered dictionary: an existing key keeps its place. -/
def put {α : Type} (d : List (String × α)) (k : String) (v : α) : List (String × α) :=
  if k ∈ d.map Prod.fst then d.map fun e => if e.1 = k then (k, v) else e else d ++ [(k, v)]

/-- A table filled row by row (182-225, 289-310). -/
def fill {α : Type} (rows : List (String × α)) : List (String × α) := rows.foldl (fun d r => put d r.1 r.2) []

theorem fill_append {α : Type} (rows : List (String × α)) (r : String × α) : fill (rows ++ [r]) = put (fill rows) r.1 r.2 := by
  simp [fill, List.foldl_append]

/-- **C151.** The table has exactly the names given, equal or not. -/
theorem C151_names {α : Type} (rows : List (String × α)) (k : String) :
    k ∈ (fill rows).map Prod.fst ↔ k ∈ rows.map Prod.fst := by
  induction rows using List.reverseRecOn with
  | nil => simp [fill]
  | append_singleton rows r ih =>
    rw [fill_append, put]
    split_ifs with h
    · have e : ((fill rows).map fun e => if e.1 = r.1 then (r.1, r.2) else e).map Prod.fst = (fill rows).map Prod.fst := by
        rw [List.map_map]
        apply List.map_congr_left
        intro e _
        by_cases he : e.1 = r.1 <;> simp [he]
      rw [e, ih, List.map_append, List.mem_append]
      constructor
      · exact Or.inl
      · rintro (h' | h')
        · exact h'
        · have : k = r.1 := by simpa using h'
          exact ih.1 (by rw [this]; exact h)
    · rw [List.map_append, List.mem_append, ih, List.map_append, List.mem_append]

/-- **C151.** With different names every chemical has its row, in the order given. -/
theorem C151_rows {α : Type} (rows : List (String × α)) (h : (rows.map Prod.fst).Nodup) : fill rows = rows := by
  induction rows using List.reverseRecOn with
  | nil => rfl
  | append_singleton rows r ih =>
    rw [List.map_append, List.nodup_append] at h
    have hr : fill rows = rows := ih h.1
    rw [fill_append, hr, put, if_neg]
    intro hm
    exact h.2.2 _ hm r.1 (by simp) rfl

example : (([("water", 18), ("ethanol", 46)] : List (String × ℚ)).map Prod.fst).Nodup := by decide

/-- **C151 fails.** Of two chemicals with the same name only the later one is in the table. -/
theorem C151_same_name_fails {α : Type} (n : String) (a b : α) : fill [(n, a), (n, b)] = [(n, b)] := by
  simp [fill, put]

/-- `property_molar_to_mass` of `chemicals`: J/mol to J/kg. -/
def perMass (x MW : ℚ) : ℚ := x * 1000 / MW

/-- Heats in `tabulate_constants` (198-201) of a chemical with the molar heats of vaporization, fusion, sublimation and formation; `chem.Hf` is per mass
(chemical.py 1080). -/
def heats (Hvap Hfus Hsub Hfm MW : ℚ) : List (String × ℚ) :=
  [("Heat of vaporization at Tb, J/mol", Hvap), ("Heat of fusion, J/mol", Hfus), ("Heat of sublimation, J/mol", Hsub),
   ("Heat of formation, J/mol", perMass Hfm MW)]

/-- **C151.** The heats of vaporization, fusion and sublimation are in the unit of their label. -/
theorem C151_heats (Hvap Hfus Hsub Hfm MW : ℚ) :
    (heats Hvap Hfus Hsub Hfm MW).take 3 = [("Heat of vaporization at Tb, J/mol", Hvap), ("Heat of fusion, J/mol", Hfus),
      ("Heat of sublimation, J/mol", Hsub)] := rfl

/-- **C151 fails.** The heat of formation is labelled per mole and is per mass: it is the molar one only for a molecular weight of
1000 g/mol or a value of zero. -/
theorem C151_formation_fails (Hvap Hfus Hsub Hfm MW : ℚ) (hM : MW ≠ 0) :
    (heats Hvap Hfus Hsub Hfm MW)[3]? = some ("Heat of formation, J/mol", Hfm * 1000 / MW) ∧
    (Hfm * 1000 / MW = Hfm ↔ MW = 1000 ∨ Hfm = 0) := by
  refine ⟨rfl, ?_⟩
  rw [div_eq_iff hM]
  constructor
  · intro h
    have : Hfm * (1000 - MW) = 0 := by linarith
    rcases mul_eq_zero.1 this with h | h
    · exact Or.inr h
    · exact Or.inl (by linarith)
  · rintro (rfl | rfl) <;> ring

example : (18 : ℚ) ≠ 0 := by norm_num

/-- A stream: CAS numbers, names and a quantity for each component (`zs`, `ws`, `ns` or `ms`). -/
structure Stream where
  CASs : List String
  names : List String
  qs : List ℚ

/-- The quantity of a component in a stream (262-274): that of the first component with this CAS number, zero without one. -/
def Stream.quantity (s : Stream) (cas : String) : ℚ :=
  if cas ∈ s.CASs then s.qs.getD (s.CASs.idxOf cas) 0 else 0

/-- `IDs[CAS]` (246-250): the name in the last stream that has the component. -/
def ids (streams : List Stream) (cas : String) : String :=
  (((streams.flatMap fun s => s.CASs.zip s.names).reverse.find? fun p => p.1 = cas).map Prod.snd).getD ""

/-- The rows of one quantity (289-310) for the CAS numbers in the order of the set (251). -/
def streamRows (label : String) (order : List String) (streams : List Stream) : List (String × List ℚ) :=
  fill (order.map fun cas => (label ++ ids streams cas, streams.map fun s => s.quantity cas))

/-- **C151.** With different names for different CAS numbers every component has its row, with its quantity in each stream and
zero where the stream does not have it. -/
theorem C151_streams (label : String) (order : List String) (streams : List Stream) (ho : order.Nodup)
    (hn : ∀ a ∈ order, ∀ b ∈ order, ids streams a = ids streams b → a = b) :
    streamRows label order streams = order.map fun cas => (label ++ ids streams cas, streams.map fun s => s.quantity cas) := by
  apply C151_rows
  rw [List.map_map]
  refine (List.nodup_map_iff_inj_on ho).2 ?_
  intro a ha b hb hab
  refine hn a ha b hb ?_
  have hab' : label ++ ids streams a = label ++ ids streams b := hab
  have := congrArg String.toList hab'
  rw [String.toList_append, String.toList_append] at this
  exact String.toList_inj.1 (List.append_cancel_left this)

def water : Stream := ⟨["7732-18-5"], ["water"], [3]⟩
def spirit : Stream := ⟨["7732-18-5", "64-17-5"], ["water", "ethanol"], [1, 4]⟩

example : (["7732-18-5", "64-17-5"] : List String).Nodup ∧
    (∀ a ∈ ["7732-18-5", "64-17-5"], ∀ b ∈ ["7732-18-5", "64-17-5"], ids [water, spirit] a = ids [water, spirit] b → a = b) ∧
    streamRows "Mole flow, mol/s " ["7732-18-5", "64-17-5"] [water, spirit]
      = [("Mole flow, mol/s water", [3, 1]), ("Mole flow, mol/s ethanol", [0, 4])] := by
  refine ⟨by decide, by decide +kernel, by decide +kernel⟩

/-- **C151.** Nothing is lost from a stream whose CAS numbers are different: the quantities shown for it add up to those it has. -/
theorem C151_total (s : Stream) (order : List String) (ho : order.Nodup) (hc : s.CASs.Nodup) (hl : s.qs.length = s.CASs.length)
    (hs : ∀ a ∈ s.CASs, a ∈ order) : (order.map s.quantity).sum = s.qs.sum := by
  have h1 : (order.map s.quantity).sum = ∑ a ∈ order.toFinset, s.quantity a := (List.sum_toFinset _ ho).symm
  have h2 : (s.CASs.map s.quantity).sum = ∑ a ∈ s.CASs.toFinset, s.quantity a := (List.sum_toFinset _ hc).symm
  have h3 : ∑ a ∈ s.CASs.toFinset, s.quantity a = ∑ a ∈ order.toFinset, s.quantity a := by
    apply Finset.sum_subset
    · intro a ha
      simp only [List.mem_toFinset] at ha ⊢
      exact hs a ha
    · intro a _ ha
      simp only [List.mem_toFinset] at ha
      simp [Stream.quantity, ha]
  have h4 : s.CASs.map s.quantity = s.qs := by
    apply List.ext_getElem (by simp [hl])
    intro i hi hj
    have hi' : i < s.CASs.length := by simpa using hi
    simp only [List.getElem_map, Stream.quantity, List.getElem_mem, if_true]
    rw [hc.idxOf_getElem i hi']
    simp [List.getD, hj]
  rw [h1, ← h3, ← h2, h4]

example : (["7732-18-5", "64-17-5"] : List String).Nodup ∧ spirit.CASs.Nodup ∧ spirit.qs.length = spirit.CASs.length ∧
    (∀ a ∈ spirit.CASs, a ∈ ["7732-18-5", "64-17-5"]) := by decide

/-- **C151 fails.** Of a stream with the same CAS number twice only the first quantity is shown, and of two components with the
same name only the later row. -/
theorem C151_streams_fails (label a b n : String) (p q : ℚ) (h : a ≠ b) :
    streamRows label [a] [⟨[a, a], [n, n], [p, q]⟩] = [(label ++ n, [p])] ∧
    streamRows label [a, b] [⟨[a, b], [n, n], [p, q]⟩] = [(label ++ n, [q])] := by
  have hb : b ≠ a := fun e => h e.symm
  constructor
  · simp [streamRows, ids, fill, put, Stream.quantity]
  · simp [streamRows, ids, fill, put, Stream.quantity, h, hb, List.idxOf_cons, show (a == b) = false by simpa using h]

/-! ## Legal status (law.py 48-253) -/

/-- The lists (36-41). -/
inductive Method where
  | combined | dsl | tsca | einecs | nlp | spin
  deriving DecidableEq

/-- The files: entries of the Canadian list with their registry number, of the TSCA inventory with their flags, and the numbers
in the three others. -/
structure Data where
  dsl : ℤ → Option ℕ
  tsca : ℤ → Option (List (String × Bool))
  einecs : ℤ → Bool
  nlp : ℤ → Bool
  spin : ℤ → Bool

/-- A status: a text or a list of texts. -/
inductive Status where
  | text (s : String)
  | flags (l : List String)
  deriving DecidableEq

/-- `CAN_DSL_flags` (48-54); `none` is the `KeyError`. -/
def dslFlag : ℕ → Option String
  | 0 => some "LISTED"
  | 1 => some "Non-Domestic Substances List (NDSL)"
  | 2 => some "Significant New Activity (SNAc)"
  | 3 => some "Ministerial Condition pertaining to this substance"
  | 4 => some "Domestic Substances List, removed (DSL_REM)"
  | 5 => some "Minister of the Environment has imposed a Ministerial Prohibition pertaining to this substance"
  | _ => none

/-- The branch for a list with no further data (232-246). -/
def listed (b : Bool) : Status := if b then .text "LISTED" else .text "UNLISTED"

/-- The branch `TSCA` (223-231); `describe` is `TSCA_flags`. -/
def tscaStatus (describe : String → String) : Option (List (String × Bool)) → Status
  | none => .text "UNLISTED"
  | some l => if l.any Prod.snd then .flags (((l.filter Prod.snd).map fun p => describe p.1).insertionSort (· ≤ ·)) else .text "LISTED"

/-- One list (218-246); `none` is an exception. -/
def status (describe : String → String) (d : Data) (cas : ℤ) : Method → Option Status
  | .dsl => match d.dsl cas with
    | some r => (dslFlag r).map .text
    | none => some (.text "UNLISTED")
  | .tsca => some (tscaStatus describe (d.tsca cas))
  | .einecs => some (listed (d.einecs cas))
  | .nlp => some (listed (d.nlp cas))
  | .spin => some (listed (d.spin cas))
  | .combined => none

/-- `methods` (213). -/
def methods : List Method := [.combined, .dsl, .tsca, .einecs, .nlp, .spin]

/-- `legal_status_methods` (117). -/
def publicMethods : List Method := [.combined, .dsl, .tsca, .einecs, .spin, .nlp]

/-- `CASi` (211-212): a missing one and zero are computed from the text. -/
def casNumber (parse : String → ℤ) (cas : String) (casi : Option ℤ) : ℤ :=
  match casi with
  | some n => if n = 0 then parse cas else n
  | none => parse cas

/-- The loop of `COMBINED` (247-250). -/
def combinedStatus (describe : String → String) (d : Data) (n : ℤ) : List Method → Option (List (Method × Status))
  | [] => some []
  | m :: l => (status describe d n m).bind fun s => (combinedStatus describe d n l).map fun r => (m, s) :: r

/-- `legal_status` (120-253): without a method all lists. -/
def legalStatus (describe : String → String) (parse : String → ℤ) (d : Data) (cas : String) (method : Option Method) (casi : Option ℤ) :
    Option (Status ⊕ List (Method × Status)) :=
  match method.getD .combined with
  | .combined => (combinedStatus describe d (casNumber parse cas casi) methods.tail).map Sum.inr
  | m => (status describe d (casNumber parse cas casi) m).map Sum.inl

/-- **C151.** The combined status has the five lists in order, each with the status the list gives by itself. -/
theorem C151_combined (describe : String → String) (parse : String → ℤ) (d : Data) (cas : String) (r : List (Method × Status))
    (h : legalStatus describe parse d cas none none = some (.inr r)) :
    r.map Prod.fst = [.dsl, .tsca, .einecs, .nlp, .spin] ∧
    ∀ m s, (m, s) ∈ r → legalStatus describe parse d cas (some m) none = some (.inl s) := by
  have key : ∀ (l : List Method) (r : List (Method × Status)), combinedStatus describe d (parse cas) l = some r →
      r.map Prod.fst = l ∧ ∀ m s, (m, s) ∈ r → status describe d (parse cas) m = some s := by
    intro l
    induction l with
    | nil =>
      intro r hr
      simp only [combinedStatus, Option.some.injEq] at hr
      subst hr
      simp
    | cons m l ih =>
      intro r hr
      cases hs : status describe d (parse cas) m with
      | none => simp [combinedStatus, hs] at hr
      | some s =>
        cases hl : combinedStatus describe d (parse cas) l with
        | none => simp [combinedStatus, hs, hl] at hr
        | some r' =>
          simp only [combinedStatus, hs, hl, Option.bind_some, Option.map_some, Option.some.injEq] at hr
          subst hr
          obtain ⟨h1, h2⟩ := ih r' hl
          refine ⟨by simp [h1], ?_⟩
          intro m' s' hm
          rcases List.mem_cons.1 hm with e | e
          · cases e
            exact hs
          · exact h2 m' s' e
  simp only [legalStatus, Option.getD_none, casNumber, Option.map_eq_some_iff] at h
  obtain ⟨r', hr, he⟩ := h
  cases he
  obtain ⟨h1, h2⟩ := key _ _ hr
  refine ⟨h1, ?_⟩
  intro m s hm
  have := h2 m s hm
  cases m <;> simp_all [legalStatus, casNumber, status]

/-- **C151.** With registry numbers 0 to 5 the status exists for every chemical and list. -/
theorem C151_total_status (describe : String → String) (parse : String → ℤ) (d : Data) (cas : String) (method : Option Method)
    (casi : Option ℤ) (hd : ∀ n r, d.dsl n = some r → r ≤ 5) : legalStatus describe parse d cas method casi ≠ none := by
  have hs : ∀ n m, m ≠ .combined → ∃ s, status describe d n m = some s := by
    intro n m hm
    cases m with
    | combined => exact absurd rfl hm
    | dsl =>
      cases hr : d.dsl n with
      | none => exact ⟨_, by simp [status, hr]; rfl⟩
      | some r =>
        have := hd n r hr
        interval_cases r <;> exact ⟨_, by simp [status, hr, dslFlag]; rfl⟩
    | tsca => exact ⟨_, rfl⟩
    | einecs => exact ⟨_, rfl⟩
    | nlp => exact ⟨_, rfl⟩
    | spin => exact ⟨_, rfl⟩
  have hc : ∀ n (l : List Method), (∀ m ∈ l, m ≠ .combined) → ∃ r, combinedStatus describe d n l = some r := by
    intro n l
    induction l with
    | nil => exact fun _ => ⟨[], rfl⟩
    | cons m l ih =>
      intro hl
      obtain ⟨s, h1⟩ := hs n m (hl m (by simp))
      obtain ⟨r, h2⟩ := ih (fun m hm => hl m (by simp [hm]))
      exact ⟨(m, s) :: r, by simp [combinedStatus, h1, h2]⟩
  unfold legalStatus
  split
  · obtain ⟨r, hr⟩ := hc (casNumber parse cas casi) methods.tail (by decide)
    simp [hr]
  · rename_i hm
    obtain ⟨s, h1⟩ := hs (casNumber parse cas casi) (method.getD .combined) hm
    simp [h1]

def lists : Data :=
  ⟨fun n => if n = 50000 then some 0 else none,
   fun n => if n = 50000 then some [("UV", false), ("S", true), ("E", true)] else none, fun n => n = 50000, fun _ => false, fun _ => true⟩

example : (∀ n r, lists.dsl n = some r → r ≤ 5) ∧
    ∃ r, legalStatus id (fun _ => 50000) lists "50-00-0" none none = some (.inr r) := by
  refine ⟨?_, ?_⟩
  · intro n r h
    simp only [lists] at h
    split_ifs at h
    cases h
    decide
  · cases h : legalStatus id (fun _ => 50000) lists "50-00-0" none none with
    | none =>
      refine absurd h (C151_total_status _ _ _ _ _ _ ?_)
      intro n r h
      simp only [lists] at h
      split_ifs at h
      cases h
      decide
    | some r =>
      cases r with
      | inl s => simp [legalStatus, combinedStatus] at h
      | inr r => exact ⟨r, rfl⟩

/-- **C151.** A chemical on the TSCA inventory without flags is listed; with flags its status is the sorted list of the descriptions
of exactly the flags that are set. -/
theorem C151_tsca (describe : String → String) (l : List (String × Bool)) :
    ((∀ p ∈ l, p.2 = false) → tscaStatus describe (some l) = .text "LISTED") ∧
    ((∃ p ∈ l, p.2 = true) → ∃ fs, tscaStatus describe (some l) = .flags fs ∧ fs.Pairwise (· ≤ ·) ∧
      (∀ s, s ∈ fs ↔ ∃ p ∈ l, p.2 = true ∧ describe p.1 = s) ∧ fs.length = (l.filter Prod.snd).length) := by
  constructor
  · intro h
    have : l.any Prod.snd = false := by
      rw [List.any_eq_false]
      intro p hp
      simp [h p hp]
    simp [tscaStatus, this]
  · rintro ⟨p, hp, hp2⟩
    have : l.any Prod.snd = true := List.any_eq_true.2 ⟨p, hp, hp2⟩
    refine ⟨((l.filter Prod.snd).map fun p => describe p.1).insertionSort (· ≤ ·), by simp [tscaStatus, this],
      List.pairwise_insertionSort _ _, ?_, by simp⟩
    intro s
    simp only [List.mem_insertionSort, List.mem_map, List.mem_filter]
    constructor
    · rintro ⟨q, ⟨h1, h2⟩, h3⟩
      exact ⟨q, h1, h2, h3⟩
    · rintro ⟨q, h1, h2, h3⟩
      exact ⟨q, ⟨h1, h2⟩, h3⟩

example : (∃ p ∈ [("UV", false), ("S", true)], p.2 = true) ∧ (∀ p ∈ [("UV", false)], p.2 = false) := by decide

/-- **C151.** The names of the methods offered are those of the function, and a number that is given in place of the text is used
unless it is zero. -/
theorem C151_methods (describe : String → String) (parse : String → ℤ) (d : Data) (cas : String) (method : Option Method) :
    publicMethods.Perm methods ∧
    legalStatus describe parse d cas method (some (parse cas)) = legalStatus describe parse d cas method none ∧
    legalStatus describe parse d cas method (some 0) = legalStatus describe parse d cas method none := by
  refine ⟨by decide, ?_, ?_⟩
  · have : casNumber parse cas (some (parse cas)) = casNumber parse cas none := by simp [casNumber]
    simp only [legalStatus, this]
  · simp only [legalStatus, casNumber, if_true]

/-! ## Loading (law.py 74-100) -/

/-- Files in the order they are read (86-100). -/
inductive File where
  | dsl | tsca | einecs | spin | nlp
  deriving DecidableEq

def files : List File := [.dsl, .tsca, .einecs, .spin, .nlp]

/-- Reading the files one after the other until one cannot be read. -/
def readAll (readable : File → Bool) : List File → List File
  | [] => []
  | f :: l => if readable f then f :: readAll readable l else []

/-- `load_law_data` (74-100): nothing is done when `TSCA_data` exists. -/
def load (readable : File → Bool) (have_ : List File) : List File :=
  if .tsca ∈ have_ then have_ else (have_ ++ readAll readable files).dedup

/-- **C151.** When all files can be read one call loads all of them, and further calls change nothing. -/
theorem C151_load (r r' : File → Bool) (h : ∀ f, r f = true) :
    load r [] = files ∧ load r' (load r []) = files := by
  have e : load r [] = files := by
    simp only [load, readAll, files, h, if_true]
    decide
  refine ⟨e, ?_⟩
  rw [e]
  simp [load, files]

/-- A file missing before the inventory of TSCA is read is looked for again. -/
theorem C151_load_again (r r' : File → Bool) (h0 : r .dsl = false) (h : ∀ f, r' f = true) : load r' (load r []) = files := by
  have e : load r [] = [] := by simp [load, readAll, files, h0]
  rw [e]
  exact (C151_load r' r' h).1

example : ∃ r r' : File → Bool, r .dsl = false ∧ ∀ f, r' f = true := ⟨fun _ => false, fun _ => true, rfl, fun _ => rfl⟩

/-- **C151 fails.** When a later file could not be read it is never looked for again, even when it can be read now. -/
theorem C151_load_fails (r r' : File → Bool) (h1 : r .dsl = true) (h2 : r .tsca = true) (h3 : r .einecs = false) :
    load r' (load r []) = [.dsl, .tsca] ∧ File.spin ∉ load r' (load r []) := by
  have e : load r [] = [.dsl, .tsca] := by
    simp only [load, readAll, files, h1, h2, h3, if_true, Bool.false_eq_true, if_false]
    decide
  have e2 : load r' [.dsl, .tsca] = [.dsl, .tsca] := by simp [load]
  rw [e, e2]
  exact ⟨rfl, by decide⟩

example : ∃ r : File → Bool, r .dsl = true ∧ r .tsca = true ∧ r .einecs = false :=
  ⟨fun f => f ≠ .einecs, rfl, rfl, rfl⟩

/-! ## Economic status (law.py 257-360) -/

/-- `_ECHATonnageDict` after the lines of the file (273-285): the bands of a chemical. -/
def bands (lines : List (String × String)) (cas : String) : Option (List String) :=
  lines.foldl (fun acc l => if l.1 = cas then (match acc with
    | some bs => if l.2 ∈ bs then some bs else some (bs ++ [l.2])
    | none => some [l.2]) else acc) none

/-- **C151.** A chemical has exactly the bands the file gives for it, each once; it is absent when the file does not have it. -/
theorem C151_bands (lines : List (String × String)) (cas : String) :
    (bands lines cas = none ↔ ∀ l ∈ lines, l.1 ≠ cas) ∧
    ∀ bs, bands lines cas = some bs → bs.Nodup ∧ ∀ b, b ∈ bs ↔ (cas, b) ∈ lines := by
  induction lines using List.reverseRecOn with
  | nil => simp [bands]
  | append_singleton lines l ih =>
    have step : bands (lines ++ [l]) cas = if l.1 = cas then (match bands lines cas with
      | some bs => if l.2 ∈ bs then some bs else some (bs ++ [l.2])
      | none => some [l.2]) else bands lines cas := by
      simp [bands, List.foldl_append]
    rw [step]
    by_cases h : l.1 = cas
    · rw [if_pos h]
      have hl : l = (cas, l.2) := by rw [← h]
      cases hb : bands lines cas with
      | none =>
        have hno := ih.1.1 hb
        refine ⟨?_, ?_⟩
        · simp only [reduceCtorEq, false_iff, not_forall]
          exact ⟨l, by simp, by simp [h]⟩
        · intro bs hbs
          cases hbs
          refine ⟨by simp, ?_⟩
          intro b
          rw [List.mem_append]
          constructor
          · intro hb'
            right
            have : b = l.2 := by simpa using hb'
            rw [this]
            simp [← hl]
          · rintro (h' | h')
            · exact absurd rfl (hno _ h')
            · have : (cas, b) = l := by simpa using h'
              rw [hl] at this
              simpa using congrArg Prod.snd this
      | some bs =>
        obtain ⟨hnd, hmem⟩ := ih.2 bs hb
        refine ⟨?_, ?_⟩
        · constructor
          · intro h'
            dsimp only at h'
            split_ifs at h'
          · intro h'
            exact absurd h (h' l (by simp))
        · intro cs hcs
          dsimp only at hcs
          by_cases hin : l.2 ∈ bs
          · rw [if_pos hin] at hcs
            cases hcs
            refine ⟨hnd, ?_⟩
            intro b
            rw [hmem, List.mem_append]
            constructor
            · exact Or.inl
            · rintro (h' | h')
              · exact h'
              · have : (cas, b) = l := by simpa using h'
                rw [hl] at this
                have e : b = l.2 := congrArg Prod.snd this
                rw [e]
                exact (hmem _).1 hin
          · rw [if_neg hin] at hcs
            cases hcs
            refine ⟨?_, ?_⟩
            · rw [List.nodup_append]
              refine ⟨hnd, by simp, ?_⟩
              intro a ha b hb' e
              have : b = l.2 := by simpa using hb'
              rw [e, this] at ha
              exact hin ha
            · intro b
              rw [List.mem_append, List.mem_append, hmem]
              have : b ∈ [l.2] ↔ (cas, b) ∈ [l] := by
                rw [List.mem_singleton, List.mem_singleton]
                constructor
                · intro e
                  rw [hl, e]
                · intro e
                  rw [hl] at e
                  exact congrArg Prod.snd e
              rw [this]
    · rw [if_neg h]
      refine ⟨?_, ?_⟩
      · rw [ih.1]
        constructor
        · intro h' m hm
          rcases List.mem_append.1 hm with hm | hm
          · exact h' m hm
          · have : m = l := by simpa using hm
            rw [this]
            exact h
        · intro h' m hm
          exact h' m (List.mem_append.2 (Or.inl hm))
      · intro bs hbs
        obtain ⟨hnd, hmem⟩ := ih.2 bs hbs
        refine ⟨hnd, ?_⟩
        intro b
        rw [hmem, List.mem_append]
        constructor
        · exact Or.inl
        · rintro (h' | h')
          · exact h'
          · have : (cas, b) = l := by simpa using h'
            exact absurd (by rw [← this]) h

example : bands [("64-17-5", "a"), ("50-00-0", "b"), ("64-17-5", "c"), ("64-17-5", "a")] "64-17-5" = some ["a", "c"] := by decide

/-- Methods of `economic_status` (303-307, 331). -/
inductive Eco where
  | combined | epacdr | echa | oecd
  deriving DecidableEq

/-- Data: text of the report to the EPA, bands, membership in the list of the OECD. -/
structure EcoData where
  epa : String → Option String
  echa : String → Option (List String)
  oecd : String → Bool

/-- `list_methods` (329-338). -/
def ecoMethods (d : EcoData) (cas : String) : List Eco :=
  [.combined] ++ (if (d.epa cas).isSome then [.epacdr] else []) ++ (if (d.echa cas).isSome then [.echa] else [])
    ++ (if d.oecd cas then [.oecd] else [])

/-- `economic_status` (341-360); `none` is the `KeyError`. -/
def ecoStatus (d : EcoData) (cas : String) : Option Eco → Option Status
  | some .epacdr => (d.epa cas).map fun s => .text ("US public: " ++ s)
  | some .echa => (d.echa cas).map .flags
  | some .oecd => some (.text "OECD HPV Chemicals")
  | _ => some (.flags (((d.epa cas).map fun s => "US public: " ++ s).toList ++ (d.echa cas).getD []
      ++ (if d.oecd cas then ["OECD HPV Chemicals"] else [])))

/-- **C151.** Every method offered for a chemical answers, the reports to the EPA and the bands only where they are offered, and without
a method all that is known is given. -/
theorem C151_economic (d : EcoData) (cas : String) :
    (∀ m ∈ ecoMethods d cas, ecoStatus d cas (some m) ≠ none) ∧
    (Eco.epacdr ∉ ecoMethods d cas → ecoStatus d cas (some .epacdr) = none) ∧
    (Eco.echa ∉ ecoMethods d cas → ecoStatus d cas (some .echa) = none) ∧
    ecoStatus d cas none = ecoStatus d cas (some .combined) ∧
    (d.epa cas = none → d.echa cas = none → d.oecd cas = false → ecoStatus d cas none = some (.flags [])) := by
  refine ⟨?_, ?_, ?_, rfl, ?_⟩
  · intro m hm
    cases h1 : d.epa cas <;> cases h2 : d.echa cas <;> cases h3 : d.oecd cas <;> cases m <;>
      simp_all [ecoMethods, ecoStatus]
  · intro h
    cases h1 : d.epa cas
    · simp [ecoStatus, h1]
    · exact absurd (by simp [ecoMethods, h1]) h
  · intro h
    cases h2 : d.echa cas
    · simp [ecoStatus, h2]
    · exact absurd (by simp [ecoMethods, h2]) h
  · intro h1 h2 h3
    simp [ecoStatus, h1, h2, h3]

/-- **C151 fails.** Asked for the list of the OECD the answer is that the chemical is on it, for every chemical. -/
theorem C151_oecd_fails (d : EcoData) (cas : String) (h : d.oecd cas = false) :
    ecoStatus d cas (some .oecd) = some (.text "OECD HPV Chemicals") ∧ Eco.oecd ∉ ecoMethods d cas := by
  refine ⟨rfl, ?_⟩
  cases h1 : d.epa cas <;> cases h2 : d.echa cas <;> simp [ecoMethods, h, h1, h2]

example : ∃ (d : EcoData) (cas : String), d.oecd cas = false := ⟨⟨fun _ => none, fun _ => none, fun _ => false⟩, "", rfl⟩

/-- The table of bands after a caller appended `x` to the list returned by `economic_status`: with the method ECHA the list is that of
the table (347), otherwise a new one (345, 351-357). -/
def afterAppend (d : EcoData) (cas : String) (m : Eco) (x : String) : EcoData :=
  if m = .echa then { d with echa := fun c => if c = cas then (d.echa c).map (· ++ [x]) else d.echa c } else d

/-- **C151.** A caller who changes the combined list does not change the data. -/
theorem C151_copied (d : EcoData) (cas x : String) : afterAppend d cas .combined x = d := by simp [afterAppend]

/-- **C151 fails.** A caller who changes the list of bands changes what every later call returns. -/
theorem C151_shared_fails (d : EcoData) (cas x : String) (bs : List String) (h : d.echa cas = some bs) :
    ecoStatus (afterAppend d cas .echa x) cas (some .echa) = some (.flags (bs ++ [x])) ∧ bs ++ [x] ≠ bs := by
  refine ⟨by simp [afterAppend, ecoStatus, h], by simp⟩

example : ∃ (d : EcoData) (cas : String) (bs : List String), d.echa cas = some bs :=
  ⟨⟨fun _ => none, fun _ => some ["100 - 1000 tonnes"], fun _ => false⟩, "", _, rfl⟩

end Verif.Sheets
