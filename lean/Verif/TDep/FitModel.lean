import Verif.TDep.Fitting
import Mathlib.Data.List.MinMax
import Mathlib.Data.List.Sort
import Mathlib.Data.List.Lex
import Mathlib.Tactic

/-!
# Fitting a correlation to data (`thermo/utils/t_dependent_property.py`, `thermo/fitting.py`, C146)

* `generate_fitting_function` (t_dependent_property.py 334-441): positions of fitted and given arguments, columns of the Jacobian.
* `fit_data_to_model` (2201-2498): parameters that are fitted, checks, candidates and selection of a model.
* `fit_customized` (fitting.py 692-874): starting points, several tries, bounds.

Simplified: exact numbers; minimizers are functions that return parameters or fail; `numba` variants and statistics (C145) are left out.
-/

namespace Verif.FitModel

/-! ## Arguments of the function that is fitted -/

/-- The list that is reused (384-393): given values, 1 for fitted ones, 0 for the rest. -/
def template (order fit : List String) (given : String → Option ℚ) : List ℚ :=
  order.map fun n => match given n with
    | some v => v
    | none => if n ∈ fit then 1 else 0

/-- `arg_dest_idxs` (389-391). -/
def dest (order fit : List String) (given : String → Option ℚ) : List ℕ :=
  (order.zipIdx.filter fun p => (given p.1).isNone && decide (p.1 ∈ fit)).map Prod.snd

/-- One call (430-440): the values are written into the list, which is kept for the next call. -/
def write (l : List ℚ) (d : List ℕ) (args : List ℚ) : List ℚ := (d.zip args).foldl (fun r p => r.set p.1 p.2) l

/-- `reusable_args.append(0)` (394-396): the argument `order` of functions that start with `EQ`. -/
def callArgs (eq : Bool) (l : List ℚ) : List ℚ := if eq then l ++ [0] else l

theorem write_length (l : List ℚ) (d : List ℕ) (args : List ℚ) : (write l d args).length = l.length := by
  unfold write
  generalize d.zip args = z
  induction z generalizing l with
  | nil => rfl
  | cons p t ih => rw [List.foldl_cons, ih, List.length_set]

theorem write_other (l : List ℚ) (d : List ℕ) (args : List ℚ) (j : ℕ) (h : j ∉ d) : (write l d args)[j]? = l[j]? := by
  unfold write
  induction d generalizing l args with
  | nil => rfl
  | cons a t ih =>
    cases args with
    | nil => rfl
    | cons v vs =>
      rw [List.zip_cons_cons, List.foldl_cons, ih _ _ (fun hm => h (List.mem_cons_of_mem _ hm))]
      exact List.getElem?_set_ne (fun he => h (by have he : a = j := he; rw [he]; exact List.mem_cons_self))

theorem write_at (l : List ℚ) (d : List ℕ) (args : List ℚ) (hd : d.Nodup) (i j : ℕ) (v : ℚ) (hi : d[i]? = some j) (hv : args[i]? = some v) (hj : j < l.length) : (write l d args)[j]? = some v := by
  induction d generalizing l args i with
  | nil => simp at hi
  | cons a t ih =>
    cases args with
    | nil => simp at hv
    | cons w vs =>
      have hn := List.nodup_cons.mp hd
      have hstep : write l (a :: t) (w :: vs) = write (l.set a w) t vs := rfl
      rw [hstep]
      cases i with
      | zero =>
        simp only [List.getElem?_cons_zero, Option.some.injEq] at hi hv
        subst hi hv
        rw [write_other _ _ _ _ hn.1]
        simp [hj]
      | succ i =>
        simp only [List.getElem?_cons_succ] at hi hv
        exact ih _ _ hn.2 i hi hv (by simpa using hj)

/-- The value an argument should have: the given one, the one of the fit, otherwise 0. -/
def expected (fit : List String) (given : String → Option ℚ) (args : List ℚ) (n : String) : ℚ :=
  match given n with
  | some v => v
  | none => ((fit.zip args).lookup n).getD 0

theorem dest_sorted (order fit : List String) (given : String → Option ℚ) : (dest order fit given).Pairwise (· < ·) := by
  unfold dest
  rw [List.pairwise_map]
  apply List.Pairwise.filter
  have : ∀ (l : List String) k, (l.zipIdx k).Pairwise fun a b => a.2 < b.2 := by
    intro l
    induction l with
    | nil => intro k; simp
    | cons a t ih =>
      intro k
      rw [List.zipIdx_cons, List.pairwise_cons]
      refine ⟨?_, ih _⟩
      intro b hb
      have := List.le_snd_of_mem_zipIdx hb
      omega
  exact this _ _

/-- The names at the positions that are written. -/
theorem dest_names (order fit : List String) (given : String → Option ℚ) :
    (dest order fit given).map (fun j => order[j]?) = (order.filter fun n => (given n).isNone && decide (n ∈ fit)).map some := by
  have key : ∀ (l pre : List String), ((l.zipIdx pre.length).filter fun p => (given p.1).isNone && decide (p.1 ∈ fit)).map (fun p => (pre ++ l)[p.2]?)
      = (l.filter fun n => (given n).isNone && decide (n ∈ fit)).map some := by
    intro l
    induction l with
    | nil => intro pre; rfl
    | cons a t ih =>
      intro pre
      have h := ih (pre ++ [a])
      rw [List.length_append, List.length_singleton, List.append_assoc, List.singleton_append] at h
      rw [List.zipIdx_cons, List.filter_cons, List.filter_cons]
      by_cases hp : ((given a).isNone && decide (a ∈ fit)) = true
      · rw [if_pos hp, if_pos hp, List.map_cons, List.map_cons, h]
        simp
      · rw [if_neg hp, if_neg hp, h]
  have := key order []
  simp only [List.length_nil, List.nil_append] at this
  unfold dest
  rw [List.map_map]
  exact this

/-- **C146.** If the fitted names are listed in the order of the arguments, every call evaluates the function with the given values, the values of the fit at their own names and 0 for all others, whatever the calls before. -/
theorem C146_arguments (order fit : List String) (given : String → Option ℚ) (ho : order.Nodup) (hf : fit.Sublist order) (hg : ∀ n ∈ fit, given n = none)
    (before : List (List ℚ)) (args : List ℚ) (ha : args.length = fit.length) :
    write (before.foldl (fun l a => write l (dest order fit given) a) (template order fit given)) (dest order fit given) args = order.map (expected fit given args) := by
  have hnames : (order.filter fun n => (given n).isNone && decide (n ∈ fit)) = fit := by
    have hsub : fit.Sublist (order.filter fun n => (given n).isNone && decide (n ∈ fit)) := by
      have := hf.filter fun n => (given n).isNone && decide (n ∈ fit)
      rwa [List.filter_eq_self.mpr (by intro a ha'; simp [hg a ha', ha'])] at this
    refine (hsub.eq_of_length_le ?_).symm
    refine List.Subperm.length_le ((List.subperm_of_subset (ho.filter _)) ?_)
    intro a ha'
    have := (List.mem_filter.mp ha').2
    simp only [Bool.and_eq_true, decide_eq_true_eq] at this
    exact this.2
  have hdn := dest_names order fit given
  rw [hnames] at hdn
  have hdl : (dest order fit given).length = fit.length := by
    have := congrArg List.length hdn
    simpa using this
  have hnd : (dest order fit given).Nodup := (dest_sorted order fit given).imp (fun h => ne_of_lt h)
  have hlen : (before.foldl (fun l a => write l (dest order fit given) a) (template order fit given)).length = order.length := by
    have : ∀ l : List ℚ, (before.foldl (fun l a => write l (dest order fit given) a) l).length = l.length := by
      induction before with
      | nil => intro l; rfl
      | cons b t ih => intro l; rw [List.foldl_cons, ih, write_length]
    rw [this]; simp [template]
  have hold : ∀ j, j ∉ dest order fit given → (before.foldl (fun l a => write l (dest order fit given) a) (template order fit given))[j]? = (template order fit given)[j]? := by
    intro j hj
    clear hlen
    generalize template order fit given = l
    induction before generalizing l with
    | nil => rfl
    | cons b t ih => rw [List.foldl_cons, ih, write_other _ _ _ _ hj]
  have hfn := hf.nodup ho
  apply List.ext_getElem?
  intro j
  by_cases hj : j ∈ dest order fit given
  · obtain ⟨i, hi, hij⟩ := List.getElem_of_mem hj
    have hi' : (dest order fit given)[i]? = some j := by rw [List.getElem?_eq_getElem hi, hij]
    have hif : i < fit.length := hdl ▸ hi
    have hname : order[j]? = some fit[i] := by
      have := congrArg (fun l => l[i]?) hdn
      simp only [List.getElem?_map, hi', Option.map_some, List.getElem?_eq_getElem hif, Option.some.injEq] at this
      exact this
    have hjo : j < order.length := by
      by_contra h
      rw [List.getElem?_eq_none (by omega)] at hname; cases hname
    rw [write_at _ _ _ hnd i j (args[i]'(by omega)) hi' (List.getElem?_eq_getElem _) (by rw [hlen]; exact hjo), List.getElem?_map, hname, Option.map_some]
    unfold expected
    rw [hg _ (List.getElem_mem _)]
    have : ∀ (f : List String) (a : List ℚ) (i : ℕ) (h1 : i < f.length) (h2 : i < a.length), f.Nodup → (f.zip a).lookup f[i] = some a[i] := by
      intro f
      induction f with
      | nil => intro a i h1; simp at h1
      | cons x t ih =>
        intro a i h1 h2 hn
        cases a with
        | nil => simp at h2
        | cons y ys =>
          cases i with
          | zero => simp [List.lookup_cons]
          | succ i =>
            have hn' := List.nodup_cons.mp hn
            simp only [List.length_cons, Nat.add_lt_add_iff_right] at h1 h2
            have hne : t[i] ≠ x := fun he => hn'.1 (he ▸ List.getElem_mem _)
            simp only [List.zip_cons_cons, List.getElem_cons_succ, List.lookup_cons, beq_eq_false_iff_ne.mpr hne]
            exact ih ys i h1 h2 hn'.2
    rw [this fit args i hif (by omega) hfn, Option.getD_some]
  · rw [write_other _ _ _ _ hj, hold j hj]
    unfold template
    rw [List.getElem?_map, List.getElem?_map]
    rcases hoj : order[j]? with _ | n
    · rfl
    · simp only [Option.map_some, Option.some.injEq]
      unfold expected
      rcases hgn : given n with _ | v
      · have hnf : n ∉ fit := by
          intro hnf
          apply hj
          unfold dest
          rw [List.mem_map]
          refine ⟨(n, j), ?_, rfl⟩
          rw [List.mem_filter]
          refine ⟨List.mem_zipIdx_iff_getElem?.mpr hoj, by simp [hgn, hnf]⟩
        rw [if_neg hnf]
        have : (fit.zip args).lookup n = none := by
          rw [List.lookup_eq_none_iff]
          intro q hq
          rw [bne_iff_ne]
          rintro rfl
          exact hnf (List.of_mem_zip hq).1
        simp only
        rw [this]; rfl
      · rfl

/-- `correlation_models` (699-1517): name, required arguments, optional arguments and fitted parameters of all models that can be fitted. -/
def models : List (String × List String × List String × List String) := [
  ("Antoine", ["A", "B", "C"], ["base"], ["A", "B", "C"]),
  ("TRC_Antoine_extended", ["Tc", "to", "A", "B", "C", "n", "E", "F"], [], ["to", "A", "B", "C", "n", "E", "F"]),
  ("Wagner_original", ["Tc", "Pc", "a", "b", "c", "d"], [], ["a", "b", "c", "d"]),
  ("Wagner", ["Tc", "Pc", "a", "b", "c", "d"], [], ["a", "b", "c", "d"]),
  ("Yaws_Psat", ["A", "B", "C", "D", "E"], [], ["A", "B", "C", "D", "E"]),
  ("TDE_PVExpansion", ["a1", "a2", "a3"], ["a4", "a5", "a6", "a7", "a8"], ["a1", "a2", "a3", "a4", "a5", "a6", "a7", "a8"]),
  ("Alibakhshi", ["Tc", "C"], [], ["C"]),
  ("PPDS12", ["Tc", "A", "B", "C", "D", "E"], [], ["A", "B", "C", "D", "E"]),
  ("Watson", ["Hvap_ref", "T_ref", "Tc"], ["exponent"], ["Hvap_ref", "T_ref"]),
  ("Viswanath_Natarajan_2", ["A", "B"], [], ["A", "B"]),
  ("Viswanath_Natarajan_2_exponential", ["C", "D"], [], ["C", "D"]),
  ("Viswanath_Natarajan_3", ["A", "B", "C"], [], ["A", "B", "C"]),
  ("PPDS5", ["Tc", "a0", "a1", "a2"], [], ["a0", "a1", "a2"]),
  ("mu_TDE", ["A", "B", "C", "D"], [], ["A", "B", "C", "D"]),
  ("PPDS9", ["A", "B", "C", "D", "E"], [], ["A", "B", "C", "D", "E"]),
  ("mu_Yaws", ["A", "B"], ["C", "D"], ["A", "B", "C", "D"]),
  ("Poling", ["a", "b", "c", "d", "e"], [], ["a", "b", "c", "d", "e"]),
  ("TRCCp", ["a0", "a1", "a2", "a3", "a4", "a5", "a6", "a7"], [], ["a0", "a1", "a2", "a3", "a4", "a5", "a6", "a7"]),
  ("Zabransky_quasi_polynomial", ["Tc", "a1", "a2", "a3", "a4", "a5", "a6"], [], ["a1", "a2", "a3", "a4", "a5", "a6"]),
  ("Zabransky_cubic", ["a1", "a2", "a3", "a4"], [], ["a1", "a2", "a3", "a4"]),
  ("Shomate", ["A", "B", "C", "D", "E"], [], ["A", "B", "C", "D", "E"]),
  ("PPDS2", ["Ts", "C_low", "C_inf", "a1", "a2", "a3", "a4", "a5"], [], ["Ts", "C_low", "C_inf", "a1", "a2", "a3", "a4", "a5"]),
  ("PPDS15", ["Tc", "a0", "a1", "a2", "a3", "a4", "a5"], [], ["a0", "a1", "a2", "a3", "a4", "a5"]),
  ("TDE_CSExpansion", ["Tc", "b", "a1"], ["a2", "a3", "a4"], ["b", "a1", "a2", "a3", "a4"]),
  ("REFPROP_sigma", ["Tc", "sigma0", "n0"], ["sigma1", "n1", "sigma2", "n2"], ["sigma0", "n0", "sigma1", "n1", "sigma2", "n2"]),
  ("Somayajulu", ["Tc", "A", "B", "C"], [], ["A", "B", "C"]),
  ("Jasper", ["a", "b"], [], ["a", "b"]),
  ("PPDS14", ["Tc", "a0", "a1", "a2"], [], ["a0", "a1", "a2"]),
  ("Watson_sigma", ["Tc", "a1", "a2", "a3", "a4", "a5"], [], ["a1", "a2", "a3", "a4", "a5"]),
  ("ISTExpansion", ["Tc", "a1", "a2", "a3", "a4", "a5"], [], ["a1", "a2", "a3", "a4", "a5"]),
  ("Chemsep_16", ["A", "B", "C", "D", "E"], [], ["A", "B", "C", "D", "E"]),
  ("PPDS8", ["Tc", "a0", "a1", "a2", "a3"], [], ["a0", "a1", "a2", "a3"]),
  ("PPDS3", ["Tc", "a1", "a2", "a3"], [], ["a1", "a2", "a3"]),
  ("TDE_VDNS_rho", ["Tc", "rhoc", "a1", "a2", "a3", "a4", "MW"], [], ["a1", "a2", "a3", "a4"]),
  ("PPDS17", ["Tc", "a0", "a1", "a2", "MW"], [], ["a0", "a1", "a2"]),
  ("volume_VDI_PPDS", ["Tc", "rhoc", "a", "b", "c", "d", "MW"], [], ["a", "b", "c", "d"]),
  ("DIPPR116_rho_to_Vm", ["Tc", "rhoc", "MW"], ["A", "B", "C", "D"], ["A", "B", "C", "D"]),
  ("Rackett_fit", ["Tc", "Pc", "Z_RA"], [], ["Z_RA"]),
  ("Rackett_density_fit", ["Tc", "rhoc", "b", "n", "MW"], [], ["rhoc", "b", "n"]),
  ("DIPPR100", [], ["A", "B", "C", "D", "E", "F", "G"], ["A", "B", "C", "D", "E", "F", "G"]),
  ("DIPPR100_inv", [], ["A", "B", "C", "D", "E", "F", "G"], ["A", "B", "C", "D", "E", "F", "G"]),
  ("constant", [], ["value"], ["value"]),
  ("linear", [], ["A", "B"], ["A", "B"]),
  ("quadratic", [], ["A", "B", "C"], ["A", "B", "C"]),
  ("cubic", [], ["A", "B", "C", "D"], ["A", "B", "C", "D"]),
  ("quintic", [], ["A", "B", "C", "D", "E"], ["A", "B", "C", "D", "E"]),
  ("DIPPR101", ["A", "B"], ["C", "D", "E"], ["A", "B", "C", "D", "E"]),
  ("DIPPR102", ["A", "B", "C", "D"], [], ["A", "B", "C", "D"]),
  ("DIPPR104", ["A", "B"], ["C", "D", "E"], ["A", "B", "C", "D", "E"]),
  ("DIPPR105", ["A", "B", "C", "D"], [], ["A", "B", "C", "D"]),
  ("DIPPR100_rho_to_Vm", ["MW", "A"], ["B", "C", "D", "E", "F", "G"], ["A", "B", "C", "D", "E", "F", "G"]),
  ("DIPPR105_reciprocal", ["A", "B", "C", "D"], [], ["A", "B", "C", "D"]),
  ("SNM0_fit", ["Tc", "Vc", "omega"], ["delta_SRK"], ["delta_SRK"]),
  ("COSTALD_fit", ["Tc", "COSTALD_Vchar", "COSTALD_omega"], [], ["COSTALD_Vchar", "COSTALD_omega"]),
  ("DIPPR106", ["Tc", "A", "B"], ["C", "D", "E"], ["A", "B", "C", "D", "E"]),
  ("DIPPR106_inv", ["Tc", "A", "B"], ["C", "D", "E"], ["A", "B", "C", "D", "E"]),
  ("YawsSigma", ["Tc", "A", "B"], ["C", "D", "E"], ["A", "B"]),
  ("DIPPR107", [], ["A", "B", "C", "D", "E"], ["A", "B", "C", "D", "E"]),
  ("DIPPR114", ["Tc", "A", "B", "C", "D"], [], ["A", "B", "C", "D"]),
  ("DIPPR115", ["A", "B"], ["C", "D", "E"], ["A", "B", "C", "D", "E"]),
  ("DIPPR116", ["Tc", "A", "B", "C", "D", "E"], [], ["A", "B", "C", "D", "E"]),
  ("DIPPR127", ["A", "B", "C", "D", "E", "F", "G"], [], ["A", "B", "C", "D", "E", "F", "G"]),
  ("Twu91_alpha_pure", ["Tc", "c0", "c1", "c2"], [], ["c0", "c1", "c2"]),
  ("Heyen_alpha_pure", ["Tc", "c1", "c2"], [], ["c1", "c2"]),
  ("Harmens_Knapp_alpha_pure", ["Tc", "c1", "c2"], [], ["c1", "c2"]),
  ("Mathias_Copeman_untruncated_alpha_pure", ["Tc", "c1", "c2", "c3"], [], ["c1", "c2", "c3"]),
  ("Mathias_1983_alpha_pure", ["Tc", "c1", "c2"], [], ["c1", "c2"]),
  ("Soave_1972_alpha_pure", ["Tc", "c0"], [], ["c0"]),
  ("Soave_1979_alpha_pure", ["Tc", "M", "N"], [], ["M", "N"]),
  ("Gibbons_Laughton_alpha_pure", ["Tc", "c1", "c2"], [], ["c1", "c2"]),
  ("Soave_1984_alpha_pure", ["Tc", "c1", "c2"], [], ["c1", "c2"]),
  ("Yu_Lu_alpha_pure", ["Tc", "c1", "c2", "c3", "c4"], [], ["c1", "c2", "c3", "c4"]),
  ("Trebble_Bishnoi_alpha_pure", ["Tc", "c1"], [], ["c1"]),
  ("Melhem_alpha_pure", ["Tc", "c1", "c2"], [], ["c1", "c2"]),
  ("Androulakis_alpha_pure", ["Tc", "c1", "c2", "c3"], [], ["c1", "c2", "c3"]),
  ("Schwartzentruber_alpha_pure", ["Tc", "c1", "c2", "c3", "c4"], [], ["c1", "c2", "c3", "c4"]),
  ("Almeida_alpha_pure", ["Tc", "c1", "c2", "c3"], [], ["c1", "c2", "c3"]),
  ("Soave_1993_alpha_pure", ["Tc", "c1", "c2"], [], ["c1", "c2"]),
  ("Gasem_alpha_pure", ["Tc", "c1", "c2", "c3"], [], ["c1", "c2", "c3"]),
  ("Coquelet_alpha_pure", ["Tc", "c1", "c2", "c3"], [], ["c1", "c2", "c3"]),
  ("Haghtalab_alpha_pure", ["Tc", "c1", "c2", "c3"], [], ["c1", "c2", "c3"]),
  ("Saffari_alpha_pure", ["Tc", "c1", "c2", "c3"], [], ["c1", "c2", "c3"]),
  ("Chen_Yang_alpha_pure", ["Tc", "omega", "c1", "c2", "c3", "c4", "c5", "c6", "c7"], [], ["c1", "c2", "c3", "c4", "c5", "c6", "c7"])]

/-- **C146.** The parameters of all models are listed in the order of their arguments. -/
theorem C146_models : ∀ m ∈ models, m.2.2.2.Sublist (m.2.1 ++ m.2.2.1) ∧ (m.2.1 ++ m.2.2.1).Nodup := by decide +kernel

/-- **C146 fails.** In another order the values are exchanged. -/
theorem C146_order_fails : write (template ["A", "B"] ["B", "A"] fun _ => none) (dest ["A", "B"] ["B", "A"] fun _ => none) [2, 1] = [2, 1] ∧ ["A", "B"].map (expected ["B", "A"] (fun _ => none) [2, 1]) = [1, 2] := by decide +kernel

example : write (template ["Tc", "A", "B", "C"] ["A", "C"] fun n => if n = "Tc" then some 500 else none) (dest ["Tc", "A", "B", "C"] ["A", "C"] fun n => if n = "Tc" then some 500 else none) [7, 8] = [500, 7, 0, 8] := by decide +kernel

/-- The columns that are removed from the Jacobian (398-416). -/
def skipped (all fit : List String) : List ℕ := (all.zipIdx.filter fun p => decide (p.1 ∉ fit)).map Prod.snd

/-- `np.delete` along the columns. -/
def delete {α : Type} (l : List α) (idx : List ℕ) : List α := (l.zipIdx.filter fun p => decide (p.2 ∉ idx)).map Prod.fst

/-- **C146.** The columns that remain are those of the fitted parameters in their order. -/
theorem C146_jacobian {α : Type} (all fit : List String) (column : String → α) (ha : all.Nodup) (hf : fit.Sublist all) : delete (all.map column) (skipped all fit) = fit.map column := by
  have hfit : all.filter (fun n => decide (n ∈ fit)) = fit := by
    have hsub : fit.Sublist (all.filter fun n => decide (n ∈ fit)) := by
      have := hf.filter fun n => decide (n ∈ fit)
      rwa [List.filter_eq_self.mpr (by intro a ha'; simp [ha'])] at this
    refine (hsub.eq_of_length_le ?_).symm
    refine List.Subperm.length_le ((List.subperm_of_subset (ha.filter _)) ?_)
    intro a ha'
    simpa using (List.mem_filter.mp ha').2
  have hidx : ∀ (i : ℕ) n, all[i]? = some n → (i ∈ skipped all fit ↔ n ∉ fit) := by
    intro i n hi
    unfold skipped
    rw [List.mem_map]
    constructor
    · rintro ⟨⟨m, k⟩, hm, rfl⟩
      rw [List.mem_filter] at hm
      have := List.mem_zipIdx_iff_getElem?.mp hm.1
      simp only at this
      rw [hi] at this
      cases this
      simpa using hm.2
    · intro hn
      exact ⟨(n, i), List.mem_filter.mpr ⟨List.mem_zipIdx_iff_getElem?.mpr hi, by simpa using hn⟩, rfl⟩
  have key : ∀ (l pre : List String), pre ++ l = all → (((l.map column).zipIdx pre.length).filter fun p => decide (p.2 ∉ skipped all fit)).map Prod.fst = (l.filter fun n => decide (n ∈ fit)).map column := by
    intro l
    induction l with
    | nil => intro pre _; rfl
    | cons a t ih =>
      intro pre hp
      have h := ih (pre ++ [a]) (by rw [List.append_assoc]; exact hp)
      rw [List.length_append, List.length_singleton] at h
      have hi := hidx pre.length a (by rw [← hp]; simp)
      rw [List.map_cons, List.zipIdx_cons, List.filter_cons, List.filter_cons]
      by_cases hm : a ∈ fit
      · rw [if_pos (by simp [hi, hm]), if_pos (by simpa using hm), List.map_cons, List.map_cons, h]
      · rw [if_neg (by simp [hi, hm]), if_neg (by simpa using hm), h]
  unfold delete
  have := key all [] rfl
  simp only [List.length_nil] at this
  rw [this, hfit]

example : delete (["A", "B", "C"].map String.length) (skipped ["A", "B", "C"] ["A", "C"]) = ["A", "C"].map String.length := C146_jacobian _ _ _ (by decide) (by decide)

/-! ## Parameters that are fitted -/

/-- `use_fit_parameters` (2306-2315). -/
def useFit (params optional : List String) (given : String → Bool) (margin pts : ℕ) : List String :=
  let margin := if pts ≤ 2 then 0 else margin
  params.foldl (fun use k => if given k then use else if use.length + margin < pts ∨ k ∉ optional then use ++ [k] else use) []

/-- Whether a fit is possible (2456-2458). -/
def fits (required : List String) (use : List String) (given : String → Bool) : Bool := required.all fun k => given k || decide (k ∈ use)

theorem useFit_spec (params optional : List String) (given : String → Bool) (margin pts : ℕ) (use : List String) :
    ∃ l : List String, params.foldl (fun use k => if given k then use else if use.length + margin < pts ∨ k ∉ optional then use ++ [k] else use) use = use ++ l ∧ l.Sublist params
      ∧ (∀ k ∈ params, given k = false → k ∉ optional → k ∈ l) ∧ (∀ k ∈ l, given k = false) ∧ (∀ (i : ℕ) k, l[i]? = some k → k ∈ optional → use.length + i + margin < pts)
      ∧ (∀ k ∈ params, given k = false → k ∉ l → pts ≤ use.length + l.length + margin) := by
  induction params generalizing use with
  | nil => exact ⟨[], by simp⟩
  | cons a t ih =>
    rw [List.foldl_cons]
    by_cases hg : given a = true
    · rw [if_pos hg]
      obtain ⟨l, h1, h2, h3, h4, h5, h6⟩ := ih use
      refine ⟨l, h1, h2.cons a, ?_, h4, h5, ?_⟩
      · intro k hk hgk hko
        rcases List.mem_cons.mp hk with rfl | hk
        · rw [hg] at hgk; cases hgk
        · exact h3 k hk hgk hko
      · intro k hk hgk hkl
        rcases List.mem_cons.mp hk with rfl | hk
        · rw [hg] at hgk; cases hgk
        · exact h6 k hk hgk hkl
    · rw [if_neg hg]
      by_cases hc : use.length + margin < pts ∨ a ∉ optional
      · rw [if_pos hc]
        obtain ⟨l, h1, h2, h3, h4, h5, h6⟩ := ih (use ++ [a])
        refine ⟨a :: l, by rw [h1, List.append_assoc]; rfl, h2.cons₂ a, ?_, ?_, ?_, ?_⟩
        · intro k hk hgk hko
          rcases List.mem_cons.mp hk with rfl | hk
          · exact List.mem_cons_self
          · exact List.mem_cons_of_mem _ (h3 k hk hgk hko)
        · intro k hk
          rcases List.mem_cons.mp hk with rfl | hk
          · simpa using hg
          · exact h4 k hk
        · intro i k hi hko
          cases i with
          | zero =>
            simp only [List.getElem?_cons_zero, Option.some.injEq] at hi
            subst hi
            rcases hc with hc | hc
            · omega
            · exact absurd hko hc
          | succ i =>
            have := h5 i k (by simpa using hi) hko
            simp only [List.length_append, List.length_singleton] at this
            omega
        · intro k hk hgk hkl
          have hkl' := not_or.mp (fun h => hkl (List.mem_cons.mpr h))
          rcases List.mem_cons.mp hk with rfl | hk
          · exact absurd rfl hkl'.1
          · have := h6 k hk hgk hkl'.2
            rw [List.length_append, List.length_singleton] at this
            rw [List.length_cons]
            omega
      · rw [if_neg hc]
        push Not at hc
        obtain ⟨l, h1, h2, h3, h4, h5, h6⟩ := ih use
        refine ⟨l, h1, h2.cons a, ?_, h4, h5, ?_⟩
        · intro k hk hgk hko
          rcases List.mem_cons.mp hk with rfl | hk
          · exact absurd hc.2 hko
          · exact h3 k hk hgk hko
        · intro k hk hgk hkl
          rcases List.mem_cons.mp hk with rfl | hk
          · omega
          · exact h6 k hk hgk hkl

/-- **C146.** Parameters are fitted in their order, never given ones and always those that are required; an optional one only while there are more points than parameters before it, and one that is left out means that there are none left. -/
theorem C146_fitted (params optional : List String) (given : String → Bool) (margin pts : ℕ) (hp : 2 < pts) :
    let use := useFit params optional given margin pts
    use.Sublist params ∧ (∀ k ∈ use, given k = false) ∧ (∀ k ∈ params, given k = false → k ∉ optional → k ∈ use)
    ∧ (∀ (i : ℕ) k, use[i]? = some k → k ∈ optional → i + margin < pts) ∧ (∀ k ∈ params, given k = false → k ∉ use → pts ≤ use.length + margin) := by
  obtain ⟨l, h1, h2, h3, h4, h5, h6⟩ := useFit_spec params optional given margin pts []
  have hu : useFit params optional given margin pts = l := by
    unfold useFit
    rw [if_neg (by omega)]
    simpa using h1
  simp only
  rw [hu]
  exact ⟨h2, h4, h3, by simpa using h5, by simpa using h6⟩

/-- **C146.** With at most two points the margin is ignored. -/
theorem C146_few_points (params optional : List String) (given : String → Bool) (margin pts : ℕ) (hp : pts ≤ 2) : useFit params optional given margin pts = useFit params optional given 0 pts := by
  unfold useFit
  rw [if_pos hp, if_pos hp]

/-- **C146.** A fit is refused exactly if some required argument is neither given nor a parameter. -/
theorem C146_required (params required optional : List String) (given : String → Bool) (margin pts : ℕ) (hd : ∀ k ∈ required, k ∉ optional) :
    fits required (useFit params optional given margin pts) given = true ↔ ∀ k ∈ required, given k = true ∨ k ∈ params := by
  obtain ⟨l, h1, h2, h3, -⟩ := useFit_spec params optional given (if pts ≤ 2 then 0 else margin) pts []
  have hl : useFit params optional given margin pts = l := by
    unfold useFit
    simpa using h1
  rw [hl]
  unfold fits
  simp only [List.all_eq_true, Bool.or_eq_true, decide_eq_true_eq]
  constructor
  · intro h k hk
    exact (h k hk).imp id fun hm => h2.subset hm
  · intro h k hk
    rcases hg : given k with _ | _
    · rcases h k hk with h | h
      · rw [hg] at h; cases h
      · exact Or.inr (h3 k h hg (hd k hk))
    · exact Or.inl rfl

example : useFit ["A", "B", "C", "D", "E"] ["C", "D", "E"] (fun k => k == "D") 0 3 = ["A", "B", "C"] := by decide
example : fits ["Tc", "A", "B"] (useFit ["A", "B", "C"] ["C"] (fun k => k == "Tc") 0 9) (fun k => k == "Tc") = true := by decide

/-! ## The result -/

/-- The dictionary that is returned (fitting.py 848-850, 2492-2498). -/
def result (fit : List String) (popt : List ℚ) (given : String → Option ℚ) (n : String) : Option ℚ :=
  match given n with
  | some v => some v
  | none => (fit.zip popt).lookup n

/-- The arguments of the function when the result is used, with the defaults of the function. -/
def later (order : List String) (default : String → ℚ) (r : String → Option ℚ) : List ℚ := order.map fun n => (r n).getD (default n)

/-- **C146.** If all arguments that are neither given nor fitted have default 0, the function used later is the one that was fitted; given values are never replaced. -/
theorem C146_result_partial (order fit : List String) (popt : List ℚ) (given : String → Option ℚ) (default : String → ℚ) (hl : popt.length = fit.length)
    (hd : ∀ n ∈ order, given n = none → n ∉ fit → default n = 0) :
    later order default (result fit popt given) = order.map (expected fit given popt) ∧ ∀ n v, given n = some v → result fit popt given n = some v := by
  refine ⟨?_, fun n v h => by unfold result; rw [h]⟩
  unfold later
  apply List.map_congr_left
  intro n hn
  unfold result expected
  rcases hg : given n with _ | v
  · simp only
    rcases hlk : (fit.zip popt).lookup n with _ | v
    · simp only [Option.getD_none]
      refine hd n hn hg fun hm => ?_
      have hm' : n ∈ (fit.zip popt).map Prod.fst := by rw [List.map_fst_zip (by omega)]; exact hm
      obtain ⟨q, hq, rfl⟩ := List.mem_map.mp hm'
      have := List.lookup_eq_none_iff.mp hlk q hq
      simp at this
    · rfl
  · rfl

/-- **C146 fails.** An argument with another default that is neither given nor fitted is 0 in the fit but has its default later: the base of Antoine's equation and the exponent of Watson's. -/
theorem C146_default_fails :
    (∀ (order fit : List String) (popt : List ℚ) (given : String → Option ℚ) (default : String → ℚ) (n : String), n ∈ order → given n = none → n ∉ fit → default n ≠ 0 →
      later order default (result fit popt given) ≠ order.map (expected fit given popt))
    ∧ ("Antoine", ["A", "B", "C"], ["base"], ["A", "B", "C"]) ∈ models ∧ ("Watson", ["Hvap_ref", "T_ref", "Tc"], ["exponent"], ["Hvap_ref", "T_ref"]) ∈ models := by
  refine ⟨?_, by decide +kernel, by decide +kernel⟩
  intro order fit popt given default n hn hg hf hd h
  have := (List.map_inj_left.mp h) n hn
  have hlk : (fit.zip popt).lookup n = none := by
    rw [List.lookup_eq_none_iff]
    intro q hq
    rw [bne_iff_ne]
    rintro rfl
    exact hf (List.of_mem_zip hq).1
  unfold result expected at this
  rw [hg] at this
  simp only [hlk, Option.getD_none] at this
  exact hd this

example : later ["A", "B", "C", "base"] (fun n => if n = "base" then 10 else 0) (result ["A", "B", "C"] [1, 2, 3] fun _ => none) = [1, 2, 3, 10]
    ∧ ["A", "B", "C", "base"].map (expected ["A", "B", "C"] (fun _ => none) [1, 2, 3]) = [1, 2, 3, 0] := by decide +kernel

/-! ## Candidates of a model selection -/

/-- `required_args_fitting` (2320-2325). -/
def requiredFitting (required : List String) : List String := required.filter fun k => decide (k ∉ ["Tc", "Vc", "Pc", "Tm", "Tb"])

/-- The loop over the numbers of optional parameters (2343-2354). -/
def candidatesFrom (optional : List String) (skip : List (List String)) (margin pts : ℕ) : List ℕ → List (List String)
  | [] => []
  | i :: t =>
    let p := optional.take i
    if p.length + margin ≤ pts then (if p ∈ skip then candidatesFrom optional skip margin pts t else p :: candidatesFrom optional skip margin pts t) else []

/-- All candidates (2326, 2341-2354). -/
def candidates (required optional : List String) (skip : List (List String)) (margin pts : ℕ) : List (List String) :=
  let start := if requiredFitting required = [] then 1 else 0
  candidatesFrom optional skip (if pts ≤ 2 then 0 else margin) pts (List.range' start (optional.length + 1 - start))

/-- `used_fit_parameters` (2369). -/
def counted (required p : List String) : ℕ := p.length + (requiredFitting required).length

/-- The parameters that the fit of a candidate really adjusts (2350-2352, 2357-2364). -/
def adjusted (params optional p : List String) (given : String → Bool) (margin pts : ℕ) : List String :=
  useFit params optional (fun k => given k || decide (k ∈ optional.drop p.length)) margin pts

theorem candidatesFrom_spec (optional : List String) (skip : List (List String)) (margin pts start n : ℕ) (hn : start + n ≤ optional.length + 1) (p : List String) :
    p ∈ candidatesFrom optional skip margin pts (List.range' start n) ↔ ∃ i, start ≤ i ∧ i < start + n ∧ p = optional.take i ∧ i + margin ≤ pts ∧ p ∉ skip := by
  induction n generalizing start with
  | zero =>
    constructor
    · intro h; simp [candidatesFrom] at h
    · rintro ⟨i, h1, h2, -⟩; omega
  | succ n ih =>
    rw [List.range'_succ, candidatesFrom]
    have hlen : (optional.take start).length = start := by rw [List.length_take]; omega
    rw [hlen]
    by_cases hm : start + margin ≤ pts
    · rw [if_pos hm]
      have ih' := ih (start + 1) (by omega)
      have hstep : (∃ i, start ≤ i ∧ i < start + (n + 1) ∧ p = optional.take i ∧ i + margin ≤ pts ∧ p ∉ skip)
          ↔ (p = optional.take start ∧ p ∉ skip) ∨ ∃ i, start + 1 ≤ i ∧ i < start + 1 + n ∧ p = optional.take i ∧ i + margin ≤ pts ∧ p ∉ skip := by
        constructor
        · rintro ⟨i, h1, h2, h3, h4, h5⟩
          rcases Nat.eq_or_lt_of_le h1 with rfl | h1
          · exact Or.inl ⟨h3, h5⟩
          · exact Or.inr ⟨i, h1, by omega, h3, h4, h5⟩
        · rintro (⟨h3, h5⟩ | ⟨i, h1, h2, h3, h4, h5⟩)
          · exact ⟨start, le_refl _, by omega, h3, hm, h5⟩
          · exact ⟨i, by omega, by omega, h3, h4, h5⟩
      rw [hstep]
      by_cases hs : optional.take start ∈ skip
      · rw [if_pos hs, ih']
        constructor
        · exact Or.inr
        · rintro (⟨h3, h5⟩ | h)
          · exact absurd (h3 ▸ hs) h5
          · exact h
      · rw [if_neg hs, List.mem_cons, ih']
        constructor
        · rintro (h | h)
          · exact Or.inl ⟨h, h ▸ hs⟩
          · exact Or.inr h
        · rintro (⟨h3, -⟩ | h)
          · exact Or.inl h3
          · exact Or.inr h
    · rw [if_neg hm]
      constructor
      · intro h; cases h
      · rintro ⟨i, h1, h2, h3, h4, h5⟩; omega

theorem candidatesFrom_sorted (optional : List String) (skip : List (List String)) (margin pts start n : ℕ) (hn : start + n ≤ optional.length + 1) :
    (candidatesFrom optional skip margin pts (List.range' start n)).Pairwise fun p q => p.length < q.length := by
  induction n generalizing start with
  | zero => simp [candidatesFrom]
  | succ n ih =>
    rw [List.range'_succ, candidatesFrom]
    split_ifs
    · exact ih _ (by omega)
    · rw [List.pairwise_cons]
      refine ⟨?_, ih _ (by omega)⟩
      intro q hq
      obtain ⟨i, h1, h2, rfl, -⟩ := (candidatesFrom_spec optional skip margin pts (start + 1) n (by omega) q).mp hq
      rw [List.length_take, List.length_take]; omega
    · simp

/-- **C146.** The candidates are the first so many optional parameters, as long as there are enough points and the combination is not excluded, with increasing numbers of parameters; at least one parameter is fitted. -/
theorem C146_candidates (required optional : List String) (skip : List (List String)) (margin pts : ℕ) (hp : 2 < pts) (p : List String) :
    (p ∈ candidates required optional skip margin pts ↔ ∃ i, i ≤ optional.length ∧ p = optional.take i ∧ i + margin ≤ pts ∧ p ∉ skip ∧ (requiredFitting required = [] → 0 < i))
    ∧ (candidates required optional skip margin pts).Pairwise (fun p q => counted required p < counted required q) := by
  unfold candidates
  dsimp only
  rw [if_neg (by omega : ¬ pts ≤ 2)]
  by_cases hr : requiredFitting required = []
  · rw [if_pos hr]
    refine ⟨?_, ?_⟩
    · rw [candidatesFrom_spec _ _ _ _ _ _ (by omega)]
      constructor
      · rintro ⟨i, h1, h2, h3, h4, h5⟩; exact ⟨i, by omega, h3, h4, h5, fun _ => h1⟩
      · rintro ⟨i, h2, h3, h4, h5, h6⟩; have := h6 hr; exact ⟨i, by omega, by omega, h3, h4, h5⟩
    · exact (candidatesFrom_sorted _ _ _ _ _ _ (by omega)).imp fun h => by unfold counted; omega
  · rw [if_neg hr]
    refine ⟨?_, ?_⟩
    · rw [candidatesFrom_spec _ _ _ _ _ _ (by omega)]
      constructor
      · rintro ⟨i, h1, h2, h3, h4, h5⟩; exact ⟨i, by omega, h3, h4, h5, fun h => absurd h hr⟩
      · rintro ⟨i, h2, h3, h4, h5, h6⟩; exact ⟨i, by omega, by omega, h3, h4, h5⟩
    · exact (candidatesFrom_sorted _ _ _ _ _ _ (by omega)).imp fun h => by unfold counted; omega

example : candidates ["Tc", "sigma0", "n0"] ["sigma1", "n1", "sigma2", "n2"] [["sigma1"], ["sigma1", "n1", "sigma2"]] 0 20 = [[], ["sigma1", "n1"], ["sigma1", "n1", "sigma2", "n2"]] := by decide

/-- **C146.** If only physical constants are given and the points suffice for all parameters of a candidate, its fit adjusts exactly the parameters counted. -/
theorem C146_count_partial (required optional params : List String) (given : String → Bool) (margin pts i : ℕ) (hp : 2 < pts) (hpar : params = requiredFitting required ++ optional) (hn : params.Nodup)
    (hg : ∀ k ∈ params, given k = false) (hi : i ≤ optional.length) (hpts : (requiredFitting required).length + i + margin ≤ pts) :
    adjusted params optional (optional.take i) given margin pts = requiredFitting required ++ optional.take i
    ∧ (adjusted params optional (optional.take i) given margin pts).length = counted required (optional.take i) := by
  have hlen : (optional.take i).length = i := by rw [List.length_take]; omega
  have main : adjusted params optional (optional.take i) given margin pts = requiredFitting required ++ optional.take i := by
    unfold adjusted
    rw [hlen]
    obtain ⟨h1, h2, -, -, h5⟩ := C146_fitted params optional (fun k => given k || decide (k ∈ optional.drop i)) margin pts hp
    generalize useFit params optional (fun k => given k || decide (k ∈ optional.drop i)) margin pts = use at *
    have hsplit : params = (requiredFitting required ++ optional.take i) ++ optional.drop i := by rw [hpar, List.append_assoc, List.take_append_drop]
    have hdis : ∀ k ∈ requiredFitting required ++ optional.take i, k ∉ optional.drop i := by
      rw [hsplit] at hn
      exact fun k hk hk' => (List.nodup_append.mp hn).2.2 k hk k hk' rfl
    have hfilter : params.filter (fun k => decide (k ∉ optional.drop i)) = requiredFitting required ++ optional.take i := by
      conv_lhs => rw [hsplit]
      rw [List.filter_append, List.filter_eq_self.mpr (fun k hk => by simpa using hdis k hk), List.filter_eq_nil_iff.mpr (by intro k hk; simpa using hk), List.append_nil]
    have hsub : use.Sublist (requiredFitting required ++ optional.take i) := by
      have := h1.filter fun k => decide (k ∉ optional.drop i)
      rw [hfilter] at this
      rwa [List.filter_eq_self.mpr] at this
      intro k hk
      have := h2 k hk
      simp only [Bool.or_eq_false_iff, decide_eq_false_iff_not] at this
      simpa using this.2
    by_contra hne
    have hlt : use.length < (requiredFitting required ++ optional.take i).length := by
      rcases Nat.lt_or_ge use.length (requiredFitting required ++ optional.take i).length with h | h
      · exact h
      · exact absurd (hsub.eq_of_length_le h) hne
    obtain ⟨k, hk, hku⟩ : ∃ k ∈ requiredFitting required ++ optional.take i, k ∉ use := by
      by_contra hall
      push Not at hall
      have hn' : (requiredFitting required ++ optional.take i).Nodup := by
        rw [hsplit] at hn
        exact (List.nodup_append.mp hn).1
      have := (List.subperm_of_subset hn' hall).length_le
      omega
    have := h5 k (by rw [hsplit]; exact List.mem_append_left _ hk) (by simp [hg k (by rw [hsplit]; exact List.mem_append_left _ hk), hdis k hk]) hku
    rw [List.length_append, hlen] at hlt
    omega
  refine ⟨main, ?_⟩
  rw [main, List.length_append]
  unfold counted
  omega

example : adjusted ["A", "B", "C", "D", "E"] ["C", "D", "E"] ["C"] (fun _ => false) 1 5 = ["A", "B", "C"] := by decide

/-- **C146 fails.** The parameters counted are not those adjusted: with four points a fifth is counted but not fitted, given ones are counted, as are optional ones that cannot be fitted and the molecular weight. -/
theorem C146_count_fails :
    (["C", "D", "E"] ∈ candidates ["A", "B"] ["C", "D", "E"] [] 0 4 ∧ counted ["A", "B"] ["C", "D", "E"] = 5 ∧ adjusted ["A", "B", "C", "D", "E"] ["C", "D", "E"] ["C", "D", "E"] (fun _ => false) 0 4 = ["A", "B", "C", "D"])
    ∧ adjusted ["A", "B", "C", "D", "E"] ["C", "D", "E"] ["C", "D", "E"] (fun k => k == "E") 0 9 = ["A", "B", "C", "D"]
    ∧ (counted ["Tc", "A", "B"] ["C", "D", "E"] = 5 ∧ adjusted ["A", "B"] ["C", "D", "E"] ["C", "D", "E"] (fun k => k == "Tc") 0 9 = ["A", "B"])
    ∧ (counted ["MW", "A"] [] = 2 ∧ adjusted ["A", "B"] ["B"] [] (fun k => k == "MW") 0 9 = ["A"]) := by decide

/-- **C146 fails.** The criterion then prefers five parameters on four points to two with the same error. -/
theorem C146_overfit_fails (S : ℝ) (hS : 0 < S) : Fitting.AICc 5 4 S < Fitting.AICc 2 4 S := by
  unfold Fitting.AICc
  rw [if_neg (by norm_num : ¬ ((4 : ℕ) : ℤ) - (5 : ℕ) - 1 = 0), if_neg (by norm_num : ¬ ((4 : ℕ) : ℤ) - (2 : ℕ) - 1 = 0), if_neg hS.ne', if_neg hS.ne']
  norm_num
  linarith

/-- **C146 fails.** With a margin larger than the number of points there are no candidates, so that the choice raises. -/
theorem C146_no_candidates_fails (required optional : List String) (skip : List (List String)) (margin pts : ℕ) (hp : 2 < pts) (h : pts < margin) : candidates required optional skip margin pts = [] := by
  apply List.eq_nil_iff_forall_not_mem.mpr
  intro p hp'
  obtain ⟨i, -, -, h4, -⟩ := (C146_candidates required optional skip margin pts hp p).1.mp hp'
  omega

/-! ## Selection of a model -/

/-- What is known of a candidate's fit (2395): criteria, squared errors of the fit and of cross-validation, mean deviation, number of parameters. -/
structure Cand where
  aic : ℚ
  bic : ℚ
  sse : ℚ
  cv : ℚ
  mae : ℚ
  params : ℕ
  deriving DecidableEq

/-- `min(l, key=f)`: the first of the smallest. -/
def firstMin (f : Cand → ℚ) : List Cand → Option Cand
  | [] => none
  | c :: t => match firstMin f t with
    | none => some c
    | some d => if f c ≤ f d then some c else some d

theorem firstMin_spec (f : Cand → ℚ) (l : List Cand) (r : Cand) (h : firstMin f l = some r) : ∃ pre post, l = pre ++ r :: post ∧ (∀ c ∈ pre, f r < f c) ∧ ∀ c ∈ post, f r ≤ f c := by
  induction l generalizing r with
  | nil => cases h
  | cons c t ih =>
    rw [firstMin] at h
    rcases ht : firstMin f t with _ | d
    · rw [ht] at h
      cases h
      cases t with
      | nil => exact ⟨[], [], rfl, by simp, by simp⟩
      | cons e u =>
        rw [firstMin] at ht
        rcases hu : firstMin f u with _ | d <;> rw [hu] at ht
        · cases ht
        · simp only at ht; split_ifs at ht
    · rw [ht] at h
      obtain ⟨pre, post, h1, h2, h3⟩ := ih d ht
      simp only at h
      split_ifs at h with hc
      · cases h
        refine ⟨[], t, rfl, by simp, ?_⟩
        intro e he
        rw [h1] at he
        rcases List.mem_append.mp he with he | he
        · exact le_trans hc (h2 e he).le
        · rcases List.mem_cons.mp he with rfl | he
          · exact hc
          · exact le_trans hc (h3 e he)
      · cases h
        refine ⟨c :: pre, post, by rw [h1]; rfl, ?_, h3⟩
        intro e he
        rcases List.mem_cons.mp he with rfl | he
        · exact not_le.mp hc
        · exact h2 e he

theorem firstMin_some (f : Cand → ℚ) (l : List Cand) (h : l ≠ []) : ∃ r, firstMin f l = some r := by
  cases l with
  | nil => exact absurd rfl h
  | cons c t =>
    rw [firstMin]
    rcases firstMin f t with _ | d
    · exact ⟨c, rfl⟩
    · simp only
      split_ifs
      · exact ⟨c, rfl⟩
      · exact ⟨d, rfl⟩

/-- `model_selection`. -/
inductive Criterion | aicc | bic | minBoth | minThree | kfold | other
  deriving DecidableEq

/-- `k_fold_mae` (2375-2392). -/
def kf (folds : Bool) (c : Cand) : ℚ := if folds then c.cv else c.sse

/-- Number of folds (2331-2338); one fold or none is no cross-validation. -/
def foldCount (pts K : ℕ) : ℕ := min (pts / 2) K

/-- Lines 2399-2445; `none` is an exception. -/
def select (s : Criterion) (folds : Bool) (l : List Cand) : Option Cand :=
  match s with
  | .aicc => firstMin Cand.aic l
  | .bic => firstMin Cand.bic l
  | .minBoth => do
    let a ← firstMin Cand.aic l
    let b ← firstMin Cand.bic l
    if a.params ≤ b.params then (if a.mae > 1 / 10 ∧ b.mae / a.mae < 1 / 3 then some b else some a) else some b
  | .minThree => do
    let a ← firstMin Cand.aic l
    let b ← firstMin Cand.bic l
    let best := if a.params ≤ b.params ∧ (∀ c ∈ l, c.aic ≠ 10 ^ 200) ∧ a.params ≠ 1 then a else b
    if folds then do
      let k ← firstMin (kf folds) l
      if k.params < min a.params b.params ∨ k.params = 2 then (if k.params = 1 ∧ 1 < min a.params b.params then l[1]? else some k) else some best
    else some best
  | .kfold => firstMin (kf folds) l
  | .other => none

/-- **C146.** With one criterion the candidate with the smallest value is chosen and of those the one with the fewest parameters. -/
theorem C146_select (l : List Cand) (hl : l.Pairwise fun a b => a.params < b.params) (folds : Bool) (s : Criterion) (f : Cand → ℚ)
    (hs : s = .aicc ∧ f = Cand.aic ∨ s = .bic ∧ f = Cand.bic ∨ s = .kfold ∧ f = kf folds) (r : Cand) (h : select s folds l = some r) :
    r ∈ l ∧ ∀ c ∈ l, f r ≤ f c ∧ (f c = f r → r.params ≤ c.params) := by
  have h' : firstMin f l = some r := by
    rcases hs with ⟨rfl, rfl⟩ | ⟨rfl, rfl⟩ | ⟨rfl, rfl⟩ <;> exact h
  obtain ⟨pre, post, h1, h2, h3⟩ := firstMin_spec f l r h'
  subst h1
  refine ⟨by simp, ?_⟩
  intro c hc
  rcases List.mem_append.mp hc with hc | hc
  · exact ⟨(h2 c hc).le, fun he => absurd he (h2 c hc).ne'⟩
  · rcases List.mem_cons.mp hc with rfl | hc
    · exact ⟨le_refl _, fun _ => le_refl _⟩
    · refine ⟨h3 c hc, fun _ => ?_⟩
      have := (List.pairwise_append.mp hl).2.1
      exact ((List.pairwise_cons.mp this).1 c hc).le

/-- **C146.** Of the choices of both criteria the one with fewer parameters is taken, the other only if the deviation of the first is above a tenth and falls to less than a third. -/
theorem C146_both (l : List Cand) (folds : Bool) (a b r : Cand) (ha : firstMin Cand.aic l = some a) (hb : firstMin Cand.bic l = some b) (h : select .minBoth folds l = some r) :
    (r.params = min a.params b.params ∧ (r = a ∨ r = b)) ∨ (r = b ∧ 1 / 10 < a.mae ∧ 3 * b.mae < a.mae ∧ a.params ≤ b.params) := by
  unfold select at h
  simp only [ha, hb, Option.bind_eq_bind, Option.bind_some] at h
  split_ifs at h with h1 h2 <;> cases h
  · refine Or.inr ⟨rfl, h2.1, ?_, h1⟩
    have h0 : 0 < a.mae := lt_trans (by norm_num) h2.1
    have := (div_lt_iff₀ h0).mp h2.2
    linarith
  · exact Or.inl ⟨by omega, Or.inl rfl⟩
  · exact Or.inl ⟨by omega, Or.inr rfl⟩

/-- **C146.** With all three there is always a choice; if cross-validation asks for fewer parameters than both criteria, no more than either are taken, and more than one if both have more than one. -/
theorem C146_three (l : List Cand) (hl : l.Pairwise fun a b => a.params < b.params) (h0 : l ≠ []) (h1 : ∀ c ∈ l, 0 < c.params) (folds : Bool) :
    ∃ a b k r, firstMin Cand.aic l = some a ∧ firstMin Cand.bic l = some b ∧ firstMin (kf folds) l = some k ∧ select .minThree folds l = some r ∧ r ∈ l
      ∧ (folds = true → k.params < min a.params b.params → r.params ≤ min a.params b.params ∧ (1 < min a.params b.params → 1 < r.params) ∧ (k.params ≠ 1 → r = k))
      ∧ (folds = false → r = a ∨ r = b) := by
  obtain ⟨a, ha⟩ := firstMin_some Cand.aic l h0
  obtain ⟨b, hb⟩ := firstMin_some Cand.bic l h0
  obtain ⟨k, hk⟩ := firstMin_some (kf folds) l h0
  have mem : ∀ f c, firstMin f l = some c → c ∈ l := by
    intro f c hc
    obtain ⟨pre, post, e, -⟩ := firstMin_spec f l c hc
    rw [e]; simp
  have hsel : select .minThree folds l = (let best := if a.params ≤ b.params ∧ (∀ c ∈ l, c.aic ≠ 10 ^ 200) ∧ a.params ≠ 1 then a else b
      if folds then (if k.params < min a.params b.params ∨ k.params = 2 then (if k.params = 1 ∧ 1 < min a.params b.params then l[1]? else some k) else some best) else some best) := by
    unfold select
    simp only [ha, hb, hk, Option.bind_eq_bind, Option.bind_some]
  have hbest : ∀ P : Prop, [Decidable P] → (if P then a else b) ∈ l := by
    intro P _
    split_ifs
    · exact mem _ _ ha
    · exact mem _ _ hb
  have hbest' : ∀ P : Prop, [Decidable P] → (if P then a else b) = a ∨ (if P then a else b) = b := by
    intro P _
    split_ifs
    · exact Or.inl rfl
    · exact Or.inr rfl
  have hkp := h1 k (mem _ _ hk)
  rw [hsel]
  dsimp only
  cases folds with
  | false =>
    rw [if_neg (by simp)]
    exact ⟨a, b, k, _, ha, hb, hk, rfl, hbest _, fun h => (by cases h), fun _ => hbest' _⟩
  | true =>
    rw [if_pos rfl]
    by_cases c1 : k.params < min a.params b.params ∨ k.params = 2
    · rw [if_pos c1]
      by_cases c2 : k.params = 1 ∧ 1 < min a.params b.params
      · rw [if_pos c2]
        have ham := mem _ _ ha
        have hbm := mem _ _ hb
        have hkm := mem _ _ hk
        cases l with
        | nil => exact absurd rfl h0
        | cons x t =>
          obtain ⟨hx, ht⟩ := List.pairwise_cons.mp hl
          have hx1 : 1 ≤ x.params := h1 x List.mem_cons_self
          have hat : a ∈ t := by
            rcases List.mem_cons.mp ham with rfl | h
            · exfalso
              rcases List.mem_cons.mp hkm with rfl | h
              · omega
              · have := hx k h; omega
            · exact h
          have hbt : b ∈ t := by
            rcases List.mem_cons.mp hbm with rfl | h
            · exfalso
              rcases List.mem_cons.mp hkm with rfl | h
              · omega
              · have := hx k h; omega
            · exact h
          cases t with
          | nil => cases hat
          | cons y u =>
            have hy := (List.pairwise_cons.mp ht).1
            have hya : y.params ≤ a.params := by
              rcases List.mem_cons.mp hat with rfl | h
              · exact le_refl _
              · exact (hy a h).le
            have hyb : y.params ≤ b.params := by
              rcases List.mem_cons.mp hbt with rfl | h
              · exact le_refl _
              · exact (hy b h).le
            have hxy := hx y List.mem_cons_self
            exact ⟨a, b, k, y, ha, hb, hk, rfl, by simp, fun _ _ => ⟨le_min hya hyb, fun _ => by omega, fun h => absurd c2.1 h⟩, fun h => by cases h⟩
      · rw [if_neg c2]
        refine ⟨a, b, k, k, ha, hb, hk, rfl, mem _ _ hk, fun _ hlt => ⟨hlt.le, fun h => ?_, fun _ => rfl⟩, fun h => by cases h⟩
        by_contra hn
        exact c2 ⟨by omega, h⟩
    · rw [if_neg c1]
      exact ⟨a, b, k, _, ha, hb, hk, rfl, hbest _, fun _ hlt => absurd (Or.inl hlt) c1, fun h => by cases h⟩

example : select .minThree true [⟨5, 5, 9, 1, 1, 1⟩, ⟨4, 4, 8, 2, 1, 2⟩, ⟨3, 3, 7, 3, 1, 3⟩] = some ⟨4, 4, 8, 2, 1, 2⟩ := by decide +kernel

/-- **C146 fails.** Two parameters are taken whenever cross-validation asks for them, although both criteria take one. -/
theorem C146_two_fails : ∃ l : List Cand, (l.Pairwise fun a b => a.params < b.params) ∧ (firstMin Cand.aic l).map Cand.params = some 1 ∧ (firstMin Cand.bic l).map Cand.params = some 1
    ∧ (select .minThree true l).map Cand.params = some 2 :=
  ⟨[⟨1, 1, 9, 2, 1, 1⟩, ⟨2, 2, 8, 1, 1, 2⟩], by decide +kernel⟩

/-- **C146 fails.** With at most three points there is no cross-validation and the candidate with the smallest error of the fit is taken, whatever its number of parameters. -/
theorem C146_folds_fails (pts K : ℕ) (hp : pts ≤ 3) (l : List Cand) (r : Cand) (h : select .kfold (decide (1 < foldCount pts K)) l = some r) : ∀ c ∈ l, r.sse ≤ c.sse := by
  have hf : decide (1 < foldCount pts K) = false := by
    unfold foldCount
    simp only [decide_eq_false_iff_not]
    omega
  rw [hf] at h
  obtain ⟨pre, post, e, h2, h3⟩ := firstMin_spec (kf false) l r h
  intro c hc
  rw [e] at hc
  rcases List.mem_append.mp hc with hc | hc
  · exact (h2 c hc).le
  · rcases List.mem_cons.mp hc with rfl | hc
    · exact le_refl _
    · exact h3 c hc

/-- **C146.** Otherwise there are at least two folds of at least two points each if two are asked for. -/
theorem C146_folds (pts K : ℕ) (hp : 4 ≤ pts) (hK : 2 ≤ K) : 2 ≤ foldCount pts K ∧ foldCount pts K ≤ K ∧ 2 * foldCount pts K ≤ pts := by
  unfold foldCount
  omega

example : foldCount 9 5 = 4 := by decide

/-- **C146 fails.** An unknown criterion or no candidates raise only after all fits. -/
theorem C146_choice_fails (folds : Bool) (l : List Cand) (s : Criterion) : select .other folds l = none ∧ select s folds [] = none := by
  refine ⟨rfl, ?_⟩
  cases s <;> rfl

/-! ## Starting points and tries -/

/-- Distinct guesses in their order (fitting.py 733-741). -/
def distinct (l : List (List ℚ)) : List (List ℚ) := l.foldl (fun u g => if g ∈ u then u else u ++ [g]) []

/-- The best guess (743-749); `none` is the exception of line 751. -/
def bestGuess (err : List ℚ → ℚ) (l : List (List ℚ)) : Option (List ℚ) :=
  ((distinct l).foldl (fun b g => if err g < b.1 then (err g, some g) else b) ((10 : ℚ) ^ 308, none)).2

/-- Guesses sorted by error and then by value (752). -/
def ordered (err : List ℚ → ℚ) (l : List (List ℚ)) : List (List ℚ) :=
  (distinct l).insertionSort fun a b => err a < err b ∨ err a = err b ∧ a ≤ b

/-- `multiple_tries`: `True`, or a number of tries (803-804). -/
def tried (n : Option ℕ) (l : List (List ℚ)) : List (List ℚ) := match n with
  | none => l
  | some n => l.take n

/-- The loop over starting points (805-840): parameters and their error for those that converge. -/
def tryAll {R : Type} (run : List ℚ → Option (R × ℚ)) (maxErr : ℚ) (best : Option (R × ℚ)) : List (List ℚ) → Option (R × ℚ)
  | [] => best
  | g :: t => match run g with
    | none => tryAll run maxErr best t
    | some r =>
      if r.2 < (best.map Prod.snd).getD (10 ^ 300) then (if r.2 < maxErr then some r else tryAll run maxErr (some r) t)
      else tryAll run maxErr best t

theorem distinct_spec (l : List (List ℚ)) : (distinct l).Nodup ∧ ∀ g, g ∈ distinct l ↔ g ∈ l := by
  have key : ∀ (l u : List (List ℚ)), u.Nodup → (l.foldl (fun u g => if g ∈ u then u else u ++ [g]) u).Nodup ∧ ∀ g, g ∈ l.foldl (fun u g => if g ∈ u then u else u ++ [g]) u ↔ g ∈ u ∨ g ∈ l := by
    intro l
    induction l with
    | nil => intro u hu; exact ⟨hu, by simp⟩
    | cons a t ih =>
      intro u hu
      rw [List.foldl_cons]
      by_cases ha : a ∈ u
      · rw [if_pos ha]
        obtain ⟨h1, h2⟩ := ih u hu
        refine ⟨h1, fun g => ?_⟩
        rw [h2, List.mem_cons]
        constructor
        · rintro (h | h)
          · exact Or.inl h
          · exact Or.inr (Or.inr h)
        · rintro (h | rfl | h)
          · exact Or.inl h
          · exact Or.inl ha
          · exact Or.inr h
      · rw [if_neg ha]
        obtain ⟨h1, h2⟩ := ih (u ++ [a]) (by
          rw [List.nodup_append]
          refine ⟨hu, by simp, ?_⟩
          intro x hx y hy
          rw [List.mem_singleton.mp hy]
          rintro rfl
          exact ha hx)
        refine ⟨h1, fun g => ?_⟩
        rw [h2, List.mem_append, List.mem_singleton, List.mem_cons, or_assoc]
  have := key l [] (by simp)
  exact ⟨this.1, fun g => by rw [show distinct l = l.foldl (fun u g => if g ∈ u then u else u ++ [g]) [] from rfl, this.2]; simp⟩

/-- **C146.** The fit starts at a guess with the smallest error, of the model or of the user; it is refused if none has a finite error. -/
theorem C146_start (err : List ℚ → ℚ) (l : List (List ℚ)) :
    (∀ g, bestGuess err l = some g → g ∈ l ∧ ∀ h ∈ l, err g ≤ err h) ∧ (bestGuess err l = none ↔ ∀ g ∈ l, (10 : ℚ) ^ 308 ≤ err g) := by
  have key : ∀ (d : List (List ℚ)) (b : ℚ × Option (List ℚ)),
      let r := d.foldl (fun b g => if err g < b.1 then (err g, some g) else b) b
      r.1 ≤ b.1 ∧ (∀ h ∈ d, r.1 ≤ err h) ∧ (r = b ∨ ∃ g ∈ d, r = (err g, some g) ∧ err g < b.1) := by
    intro d
    induction d with
    | nil => intro b; exact ⟨le_refl _, by simp, Or.inl rfl⟩
    | cons a t ih =>
      intro b
      simp only [List.foldl_cons]
      by_cases ha : err a < b.1
      · rw [if_pos ha]
        obtain ⟨h1, h2, h3⟩ := ih (err a, some a)
        refine ⟨h1.trans ha.le, ?_, ?_⟩
        · intro h hh
          rcases List.mem_cons.mp hh with rfl | hh
          · exact h1
          · exact h2 h hh
        · rcases h3 with h3 | ⟨g, hg, h3, h4⟩
          · exact Or.inr ⟨a, List.mem_cons_self, h3, ha⟩
          · exact Or.inr ⟨g, List.mem_cons_of_mem _ hg, h3, lt_trans h4 ha⟩
      · rw [if_neg ha]
        obtain ⟨h1, h2, h3⟩ := ih b
        refine ⟨h1, ?_, ?_⟩
        · intro h hh
          rcases List.mem_cons.mp hh with rfl | hh
          · exact h1.trans (not_lt.mp ha)
          · exact h2 h hh
        · exact h3.imp id fun ⟨g, hg, h⟩ => ⟨g, List.mem_cons_of_mem _ hg, h⟩
  obtain ⟨h1, h2, h3⟩ := key (distinct l) ((10 : ℚ) ^ 308, none)
  have hm := (distinct_spec l).2
  unfold bestGuess
  constructor
  · intro g hg
    rcases h3 with h3 | ⟨g', hg', h3, -⟩
    · rw [h3] at hg; cases hg
    · rw [h3] at hg h2
      cases hg
      exact ⟨(hm g).mp hg', fun h hh => h2 h ((hm h).mpr hh)⟩
  · constructor
    · intro hn g hg
      rcases h3 with h3 | ⟨g', hg', h3, -⟩
      · have := h2 g ((hm g).mpr hg)
        rw [h3] at this
        exact this
      · rw [h3] at hn; cases hn
    · intro hall
      rcases h3 with h3 | ⟨g', hg', h3, h4⟩
      · rw [h3]
      · exact absurd h4 (not_lt.mpr (hall g' ((hm g').mp hg')))

/-- **C146.** The guesses tried are all distinct ones, sorted by their errors; a number of tries takes those with the smallest errors. -/
theorem C146_ordered (err : List ℚ → ℚ) (l : List (List ℚ)) (n : ℕ) :
    (ordered err l).Perm (distinct l) ∧ (ordered err l).Pairwise (fun a b => err a ≤ err b)
    ∧ ∀ a ∈ tried (some n) (ordered err l), ∀ b ∈ l, b ∉ tried (some n) (ordered err l) → err a ≤ err b := by
  have htot : Std.Total (fun a b : List ℚ => err a < err b ∨ err a = err b ∧ a ≤ b) := ⟨by
    intro a b
    rcases lt_trichotomy (err a) (err b) with h | h | h
    · exact Or.inl (Or.inl h)
    · rcases le_total a b with h' | h'
      · exact Or.inl (Or.inr ⟨h, h'⟩)
      · exact Or.inr (Or.inr ⟨h.symm, h'⟩)
    · exact Or.inr (Or.inl h)⟩
  have htr : IsTrans (List ℚ) (fun a b : List ℚ => err a < err b ∨ err a = err b ∧ a ≤ b) := ⟨by
    rintro a b c (h | ⟨h, h'⟩) (k | ⟨k, k'⟩)
    · exact Or.inl (h.trans k)
    · exact Or.inl (k ▸ h)
    · exact Or.inl (h ▸ k)
    · exact Or.inr ⟨h.trans k, h'.trans k'⟩⟩
  have hs : (ordered err l).Pairwise (fun a b => err a ≤ err b) :=
    (List.pairwise_insertionSort (r := fun a b : List ℚ => err a < err b ∨ err a = err b ∧ a ≤ b) (distinct l)).imp fun h => by
      rcases h with h | ⟨h, -⟩
      · exact h.le
      · exact h.le
  have hp : (ordered err l).Perm (distinct l) := List.perm_insertionSort _ _
  refine ⟨hp, hs, ?_⟩
  intro a ha b hb hnb
  have hbo : b ∈ ordered err l := hp.mem_iff.mpr (((distinct_spec l).2 b).mpr hb)
  unfold tried at ha hnb
  simp only at ha hnb
  rw [← List.take_append_drop n (ordered err l)] at hs hbo
  rcases List.mem_append.mp hbo with h | h
  · exact absurd h hnb
  · exact (List.pairwise_append.mp hs).2.2 a ha b h

theorem tryAll_spec {R : Type} (run : List ℚ → Option (R × ℚ)) (maxErr : ℚ) (l : List (List ℚ)) (best : Option (R × ℚ)) (hb : ∀ r, best = some r → r.2 < 10 ^ 300) :
    (∀ r, tryAll run maxErr best l = some r → (best = some r ∨ ∃ g ∈ l, run g = some r) ∧ r.2 < 10 ^ 300
      ∧ (maxErr ≤ r.2 → (∀ g ∈ l, ∀ s, run g = some s → r.2 ≤ s.2) ∧ ∀ s, best = some s → r.2 ≤ s.2))
    ∧ (tryAll run maxErr best l = none ↔ best = none ∧ ∀ g ∈ l, ∀ s, run g = some s → (10 : ℚ) ^ 300 ≤ s.2) := by
  induction l generalizing best with
  | nil =>
    rw [tryAll]
    refine ⟨fun r h => ⟨Or.inl h, hb r h, fun _ => ⟨by simp, fun s hs => by rw [h] at hs; cases hs; exact le_refl _⟩⟩, by simp⟩
  | cons g t ih =>
    rw [tryAll]
    rcases hg : run g with _ | q
    · simp only
      obtain ⟨h1, h2⟩ := ih best hb
      refine ⟨fun r hr => ?_, ?_⟩
      · obtain ⟨a, b, c⟩ := h1 r hr
        refine ⟨a.imp id fun ⟨x, hx, hx'⟩ => ⟨x, List.mem_cons_of_mem _ hx, hx'⟩, b, fun hm => ⟨?_, (c hm).2⟩⟩
        intro x hx s hs
        rcases List.mem_cons.mp hx with rfl | hx
        · rw [hg] at hs; cases hs
        · exact (c hm).1 x hx s hs
      · rw [h2]
        constructor
        · rintro ⟨a, b⟩
          refine ⟨a, ?_⟩
          intro x hx s hs
          rcases List.mem_cons.mp hx with rfl | hx
          · rw [hg] at hs; cases hs
          · exact b x hx s hs
        · rintro ⟨a, b⟩
          exact ⟨a, fun x hx => b x (List.mem_cons_of_mem _ hx)⟩
    · simp only
      have hbd : ∀ s, best = some s → (best.map Prod.snd).getD (10 ^ 300) = s.2 := by rintro s rfl; rfl
      have hle : (best.map Prod.snd).getD (10 ^ 300) ≤ 10 ^ 300 := by
        rcases best with _ | s
        · exact le_refl _
        · exact (hb s rfl).le
      by_cases hq : q.2 < (best.map Prod.snd).getD (10 ^ 300)
      · rw [if_pos hq]
        have hq300 : q.2 < 10 ^ 300 := lt_of_lt_of_le hq hle
        by_cases hm : q.2 < maxErr
        · rw [if_pos hm]
          refine ⟨fun r hr => ?_, ?_⟩
          · cases hr
            exact ⟨Or.inr ⟨g, List.mem_cons_self, hg⟩, hq300, fun h => absurd h (not_le.mpr hm)⟩
          · constructor
            · intro h; cases h
            · rintro ⟨-, h⟩
              exact absurd hq300 (not_lt.mpr (h g List.mem_cons_self q hg))
        · rw [if_neg hm]
          obtain ⟨h1, h2⟩ := ih (some q) (by rintro r h; cases h; exact hq300)
          refine ⟨fun r hr => ?_, ?_⟩
          · obtain ⟨a, b, c⟩ := h1 r hr
            refine ⟨?_, b, fun hmr => ?_⟩
            · rcases a with a | ⟨x, hx, hx'⟩
              · cases a
                exact Or.inr ⟨g, List.mem_cons_self, hg⟩
              · exact Or.inr ⟨x, List.mem_cons_of_mem _ hx, hx'⟩
            · have hrq := (c hmr).2 q rfl
              refine ⟨?_, fun s hs => ?_⟩
              · intro x hx s hs
                rcases List.mem_cons.mp hx with rfl | hx
                · rw [hg] at hs; cases hs; exact hrq
                · exact (c hmr).1 x hx s hs
              · rw [hbd s hs] at hq
                exact hrq.trans hq.le
          · rw [h2]
            constructor
            · rintro ⟨h, -⟩; cases h
            · rintro ⟨-, h⟩
              exact absurd hq300 (not_lt.mpr (h g List.mem_cons_self q hg))
      · rw [if_neg hq]
        obtain ⟨h1, h2⟩ := ih best hb
        refine ⟨fun r hr => ?_, ?_⟩
        · obtain ⟨a, b, c⟩ := h1 r hr
          refine ⟨a.imp id fun ⟨x, hx, hx'⟩ => ⟨x, List.mem_cons_of_mem _ hx, hx'⟩, b, fun hm => ⟨?_, (c hm).2⟩⟩
          intro x hx s hs
          rcases List.mem_cons.mp hx with rfl | hx
          · rw [hg] at hs; cases hs
            rcases hbe : best with _ | s
            · rw [hbe] at hq
              exact b.le.trans (not_lt.mp hq)
            · rw [hbd s hbe] at hq
              exact ((c hm).2 s hbe).trans (not_lt.mp hq)
          · exact (c hm).1 x hx s hs
        · rw [h2]
          constructor
          · rintro ⟨a, b⟩
            refine ⟨a, ?_⟩
            intro x hx s hs
            rcases List.mem_cons.mp hx with rfl | hx
            · rw [hg] at hs; cases hs
              rw [a] at hq
              exact not_lt.mp hq
            · exact b x hx s hs
          · rintro ⟨a, b⟩
            exact ⟨a, fun x hx => b x (List.mem_cons_of_mem _ hx)⟩

/-- **C146.** The parameters returned come from one of the tries; their error is below the tolerance, or no try has a smaller one; an exception is raised exactly if no try converged. -/
theorem C146_tries {R : Type} (run : List ℚ → Option (R × ℚ)) (maxErr : ℚ) (l : List (List ℚ)) :
    (∀ r, tryAll run maxErr none l = some r → (∃ g ∈ l, run g = some r) ∧ (r.2 < maxErr ∨ ∀ g ∈ l, ∀ s, run g = some s → r.2 ≤ s.2))
    ∧ (tryAll run maxErr none l = none ↔ ∀ g ∈ l, ∀ s, run g = some s → (10 : ℚ) ^ 300 ≤ s.2) := by
  obtain ⟨h1, h2⟩ := tryAll_spec run maxErr l none (by rintro r h; cases h)
  refine ⟨fun r hr => ?_, by rw [h2]; simp⟩
  obtain ⟨a, b, c⟩ := h1 r hr
  refine ⟨?_, ?_⟩
  · rcases a with a | a
    · cases a
    · exact a
  · rcases lt_or_ge r.2 maxErr with h | h
    · exact Or.inl h
    · exact Or.inr (c h).1

/-- **C146.** A try below the tolerance ends the search: later guesses have no effect. -/
theorem C146_stop {R : Type} (run : List ℚ → Option (R × ℚ)) (maxErr : ℚ) (pre post : List (List ℚ)) (g : List ℚ) (r : R × ℚ) (hpre : ∀ x ∈ pre, ∀ s, run x = some s → r.2 < s.2 ∧ maxErr ≤ s.2) (hg : run g = some r) (hr : r.2 < maxErr) (h300 : r.2 < 10 ^ 300) :
    tryAll run maxErr none (pre ++ g :: post) = some r := by
  have key : ∀ (pre : List (List ℚ)) (best : Option (R × ℚ)), (∀ x ∈ pre, ∀ s, run x = some s → r.2 < s.2 ∧ maxErr ≤ s.2) → (∀ s, best = some s → r.2 < s.2) → tryAll run maxErr best (pre ++ g :: post) = some r := by
    intro pre
    induction pre with
    | nil =>
      intro best _ hb
      rw [List.nil_append, tryAll, hg]
      simp only
      rw [if_pos, if_pos hr]
      rcases best with _ | s
      · exact h300
      · exact hb s rfl
    | cons a t ih =>
      intro best hp hb
      have ht : ∀ x ∈ t, ∀ s, run x = some s → r.2 < s.2 ∧ maxErr ≤ s.2 := fun x hx => hp x (List.mem_cons_of_mem _ hx)
      rw [List.cons_append, tryAll]
      rcases ha : run a with _ | q
      · exact ih best ht hb
      · obtain ⟨h1, h2⟩ := hp a List.mem_cons_self q ha
        simp only
        split_ifs with c1 c2
        · exact absurd c2 (not_lt.mpr h2)
        · exact ih (some q) ht (by rintro s h; cases h; exact h1)
        · exact ih best ht hb
  exact key pre none hpre (by rintro s h; cases h)

example : tryAll (fun g => if g = [1] then none else some (g, g.sum)) 2 none [[1], [5], [4], [1, 1/2], [0]] = some ([1, 1/2], 3/2) := by decide +kernel

/-- **C146 fails.** Without several tries the guess of the user is not used if a guess of the model has a smaller error. -/
theorem C146_guess_fails (err : List ℚ → ℚ) (model : List (List ℚ)) (g m : List ℚ) (hm : m ∈ model) (h : err m < err g) : bestGuess err (model ++ [g]) ≠ some g := by
  intro hb
  have := ((C146_start err (model ++ [g])).1 g hb).2 m (List.mem_append_left _ hm)
  linarith

/-! ## Bounds of differential evolution -/

/-- `working_bounds` of one parameter (771-778), from its values in all guesses. -/
def bounds (values : List ℚ) (lo hi : ℚ) : ℚ × ℚ :=
  if 3 < values.length then (if lo < 0 then lo * 4 else lo * (1 / 4), if hi < 0 then hi * (1 / 4) else hi * 4) else (0, 1000)

/-- **C146.** With more than three guesses the bounds contain all of them. -/
theorem C146_bounds_partial (values : List ℚ) (lo hi : ℚ) (hl : ∀ v ∈ values, lo ≤ v ∧ v ≤ hi) (h : 3 < values.length) : ∀ v ∈ values, (bounds values lo hi).1 ≤ v ∧ v ≤ (bounds values lo hi).2 := by
  intro v hv
  obtain ⟨h1, h2⟩ := hl v hv
  unfold bounds
  rw [if_pos h]
  constructor
  · simp only
    split_ifs <;> linarith
  · simp only
    split_ifs <;> linarith

/-- **C146.** The bounds are a factor of four from the extreme guesses. -/
theorem C146_bounds_values : bounds [-2, 1, 3, 8] (-2) 8 = (-8, 32) ∧ bounds [-2, -1, -3, -8] (-8) (-1) = (-32, -1 / 4) ∧ bounds [2, 1, 3, 8] 1 8 = (1 / 4, 32) := by
  unfold bounds
  norm_num

/-- **C146 fails.** With three guesses or fewer the bounds are 0 and 1000 whatever the guesses. -/
theorem C146_bounds_fails (values : List ℚ) (lo hi : ℚ) (h : values.length ≤ 3) : bounds values lo hi = (0, 1000) := by
  unfold bounds
  rw [if_neg (by omega)]

/-- Bounds given by the user are taken out of their dictionary (768-769): bounds used and what remains. -/
def popBounds {B : Type} (given : Option B) (own : B) : B × Option B := match given with
  | some b => (b, none)
  | none => (own, none)

/-- **C146 fails.** Bounds of the user hold for the first fit only, for example for the first candidate of a selection. -/
theorem C146_bounds_once_fails {B : Type} (b own : B) : (popBounds (some b) own).1 = b ∧ (popBounds (popBounds (some b) own).2 own).1 = own := ⟨rfl, rfl⟩

/-- `maxfev` (791-798), which stays in the dictionary of the user. -/
def maxfev (given : Option ℕ) (jac lm : Bool) : Option ℕ := match given with
  | some n => some n
  | none => if lm then some (if jac then 500 else 5000) else none

/-- **C146 fails.** The limit of a fit with a Jacobian is kept for later fits without one that use the same dictionary. -/
theorem C146_maxfev_fails : maxfev none false true = some 5000 ∧ maxfev (maxfev none true true) false true = some 500 ∧ ∀ n j m, maxfev (some n) j m = some n := ⟨rfl, rfl, fun _ _ _ => rfl⟩

end Verif.FitModel
