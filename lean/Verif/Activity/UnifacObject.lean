import Mathlib.Data.Finset.Sort
import Mathlib.Algebra.BigOperators.Fin
import Mathlib.Algebra.BigOperators.Group.Finset.Sigma
import Mathlib.Data.Real.Basic
import Mathlib.Logic.Function.Basic
import Mathlib.Tactic
import Verif.Activity.Unifac

/-!
# C135: UNIFAC models as objects: construction from groups, stored results, copies at other states

`thermo/unifac.py`: `chemgroups_to_matrix` (4006-4020), `UNIFAC.from_subgroups` (5314-5467), `UNIFAC.__init__` (5480-5570), `UNIFAC.to_T_xs`
(5572-5742) and the storing of results of all methods of the class (5767-8808).

The numbers themselves are in C97 and C98. Here a method is a name, the list of other results it reads and whether it reads temperature and
composition; what it computes from these is a parameter `fn`. `run` is a result that is computed when it is not stored, `peek` one that is only
read. Missing attributes and the `TypeError` of line 4727 are `none`. Lists and arrays are not distinguished; that callers could change a stored
list in place is left out.
-/

namespace Verif.UnifacObject

open Finset

/-! ## Stored results -/

/-- The results a UNIFAC object stores (lines of the method). -/
inductive Name
  /-- 7457-7484 -/
  | Xs_pure
  /-- 7486-7516 -/
  | Thetas_pure
  /-- 5767-5811 -/
  | psis
  /-- 5813-5870 -/
  | dpsis_dT
  /-- 5872-5936 -/
  | d2psis_dT2
  /-- 5939-6012 -/
  | d3psis_dT3
  /-- 6014-6041 -/
  | Vis
  /-- set together with `Vis` -/
  | rx_sum_inv
  /-- 6043-6078 -/
  | dVis_dxs
  /-- 6080-6117 -/
  | d2Vis_dxixjs
  /-- 6119-6155 -/
  | d3Vis_dxixjxks
  /-- 6157-6184 -/
  | Fis
  /-- set together with `Fis` -/
  | qx_sum_inv
  /-- 6186-6223 -/
  | dFis_dxs
  /-- 6225-6264 -/
  | d2Fis_dxixjs
  /-- 6266-6303 -/
  | d3Fis_dxixjxks
  /-- 6305-6333 -/
  | Vis_modified
  /-- set together with `Vis_modified` -/
  | r34x_sum_inv
  /-- 6335-6370 -/
  | dVis_modified_dxs
  /-- 6372-6410 -/
  | d2Vis_modified_dxixjs
  /-- 6412-6449 -/
  | d3Vis_modified_dxixjxks
  /-- 6451-6478 -/
  | Xs
  /-- set together with `Xs` -/
  | Xs_sum_inv
  /-- 6487-6515 -/
  | Thetas
  /-- set together with `Thetas` -/
  | Thetas_sum_inv
  /-- 6663-6675 -/
  | VSXS
  /-- 6524-6585 -/
  | dThetas_dxs
  /-- 6587-6661 -/
  | d2Thetas_dxixjs
  /-- 6677-6705 -/
  | Theta_Psi_sums
  /-- 6707-6725 -/
  | Theta_Psi_sum_invs
  /-- 6727-6756 -/
  | Ws
  /-- 6758-6785 -/
  | Fs
  /-- 6787-6820 -/
  | Gs
  /-- 6822-6849 -/
  | Hs
  /-- 6851-6870 -/
  | Theta_pure_Psi_sums
  /-- 6872-6890 -/
  | Theta_pure_Psi_sum_invs
  /-- 6892-6916 -/
  | Fs_pure
  /-- 6918-6942 -/
  | Gs_pure
  /-- 6944-6968 -/
  | Hs_pure
  /-- 6970-7013 -/
  | lnGammas_subgroups
  /-- 7015-7076 -/
  | dlnGammas_subgroups_dxs
  /-- 7078-7164 -/
  | d2lnGammas_subgroups_dTdxs
  /-- 7167-7239 -/
  | d2lnGammas_subgroups_dxixjs
  /-- 7241-7295 -/
  | dlnGammas_subgroups_dT
  /-- 7297-7366 -/
  | d2lnGammas_subgroups_dT2
  /-- 7369-7455 -/
  | d3lnGammas_subgroups_dT3
  /-- 7519-7554 -/
  | lnGammas_subgroups_pure
  /-- 7556-7621 -/
  | dlnGammas_subgroups_pure_dT
  /-- 7623-7685 -/
  | d2lnGammas_subgroups_pure_dT2
  /-- 7687-7760 -/
  | d3lnGammas_subgroups_pure_dT3
  /-- 7762-7796 -/
  | lngammas_r
  /-- 7798-7832 -/
  | dlngammas_r_dT
  /-- 7834-7869 -/
  | d2lngammas_r_dT2
  /-- 7871-7903 -/
  | d3lngammas_r_dT3
  /-- 7905-7940 -/
  | dlngammas_r_dxs
  /-- 7942-7972 -/
  | d2lngammas_r_dTdxs
  /-- 7974-8003 -/
  | d2lngammas_r_dxixjs
  /-- 8371-8419 -/
  | lngammas_c
  /-- 8489-8560 -/
  | dlngammas_c_dxs
  /-- 8614-8711 -/
  | d2lngammas_c_dxixjs
  /-- 8713-8808 -/
  | d3lngammas_c_dxixjxks
  /-- 8005-8033 -/
  | GE
  /-- 8035-8069 -/
  | dGE_dxs
  /-- 8071-8111 -/
  | d2GE_dTdxs
  /-- 8113-8156 -/
  | d2GE_dxixjs
  /-- 8158-8177 -/
  | dGE_dT
  /-- 8179-8201 -/
  | d2GE_dT2
  /-- 8203-8225 -/
  | d3GE_dT3
  /-- 8227-8269 -/
  | gammas
  /-- 8271-8301 -/
  | dgammas_dT
  /-- 8317-8369 -/
  | dgammas_dxs
  /-- 8303-8315 -/
  | dgammas_dns
  deriving DecidableEq, Repr

/-- Position in the list of results. -/
def Name.pos (n : Name) : ℕ := n.ctorIdx

/-- A result read by a method. -/
inductive Dep
  /-- stored, otherwise computed and stored -/
  | run (n : Name)
  /-- only looked up -/
  | peek (n : Name)

/-- The result. -/
def Dep.name : Dep → Name
  | .run n => n
  | .peek n => n

/-- What decides which results are needed. -/
structure Opt where
  /-- version 1 or 4: `rs_34` exists (5520-5532) -/
  modified : Bool
  /-- version 3: no combinatorial part (5518) -/
  skip : Bool
  /-- one component -/
  single : Bool

/-- Only for versions 1 and 4. -/
def Opt.whenModified (o : Opt) (l : List Dep) : List Dep := if o.modified then l else []

/-- Not for version 3. -/
def Opt.whenComb (o : Opt) (l : List Dep) : List Dep := if o.skip then [] else l

/-- Not for one component. -/
def Opt.whenMany (o : Opt) (l : List Dep) : List Dep := if o.single then [] else l

open Dep in
/-- The results read by each method, in order. The third derivative of pure groups looks the inverse sums up and, when they are not stored,
takes the bound method instead of calling it (7736-7739): it is not computed, the subscript at 4727 raises. -/
def deps (o : Opt) : Name → List Dep
  | .Xs_pure => []
  | .Thetas_pure => [run .Xs_pure]
  | .psis => []
  | .dpsis_dT => [run .psis]
  | .d2psis_dT2 => [run .psis]
  | .d3psis_dT3 => [run .psis]
  | .Vis => []
  | .rx_sum_inv => []
  | .dVis_dxs => [run .rx_sum_inv]
  | .d2Vis_dxixjs => [run .rx_sum_inv]
  | .d3Vis_dxixjxks => [run .rx_sum_inv]
  | .Fis => []
  | .qx_sum_inv => []
  | .dFis_dxs => [run .qx_sum_inv]
  | .d2Fis_dxixjs => [run .qx_sum_inv]
  | .d3Fis_dxixjxks => [run .qx_sum_inv]
  | .Vis_modified => []
  | .r34x_sum_inv => []
  | .dVis_modified_dxs => [run .r34x_sum_inv]
  | .d2Vis_modified_dxixjs => [run .r34x_sum_inv]
  | .d3Vis_modified_dxixjxks => [run .r34x_sum_inv]
  | .Xs => []
  | .Xs_sum_inv => []
  | .Thetas => [run .Xs]
  | .Thetas_sum_inv => [run .Xs]
  | .VSXS => []
  | .dThetas_dxs => [run .Xs_sum_inv, run .Thetas_sum_inv, run .VSXS]
  | .d2Thetas_dxixjs => [run .Xs_sum_inv, run .Thetas_sum_inv, run .VSXS]
  | .Theta_Psi_sums => [run .psis, run .Thetas]
  | .Theta_Psi_sum_invs => [run .Theta_Psi_sums]
  | .Ws => [run .psis, run .dThetas_dxs]
  | .Fs => [run .dpsis_dT, run .Thetas]
  | .Gs => [run .d2psis_dT2, run .Thetas]
  | .Hs => [run .d3psis_dT3, run .Thetas]
  | .Theta_pure_Psi_sums => [peek .Thetas_pure, run .psis]
  | .Theta_pure_Psi_sum_invs => [run .Theta_pure_Psi_sums]
  | .Fs_pure => [peek .Thetas_pure, run .dpsis_dT]
  | .Gs_pure => [peek .Thetas_pure, run .d2psis_dT2]
  | .Hs_pure => [peek .Thetas_pure, run .d3psis_dT3]
  | .lnGammas_subgroups => [run .psis, run .Thetas, run .Theta_Psi_sums, run .Theta_Psi_sum_invs]
  | .dlnGammas_subgroups_dxs => [run .psis, run .Thetas, run .dThetas_dxs, run .Theta_Psi_sum_invs, run .Ws]
  | .d2lnGammas_subgroups_dTdxs => [run .psis, run .dpsis_dT, run .Thetas, run .dThetas_dxs, run .Theta_Psi_sum_invs, run .Ws, run .Fs]
  | .d2lnGammas_subgroups_dxixjs => [run .psis, run .Thetas, run .dThetas_dxs, run .d2Thetas_dxixjs, run .Theta_Psi_sum_invs, run .Ws]
  | .dlnGammas_subgroups_dT => [run .psis, run .dpsis_dT, run .Thetas, run .Theta_Psi_sum_invs, run .Fs]
  | .d2lnGammas_subgroups_dT2 => [run .psis, run .dpsis_dT, run .d2psis_dT2, run .Thetas, run .Theta_Psi_sum_invs, run .Fs, run .Gs]
  | .d3lnGammas_subgroups_dT3 => [run .psis, run .dpsis_dT, run .d2psis_dT2, run .d3psis_dT3, run .Thetas, run .Theta_Psi_sum_invs, run .Fs, run .Gs,
    run .Hs]
  | .lnGammas_subgroups_pure => [peek .Thetas_pure, run .psis]
  | .dlnGammas_subgroups_pure_dT => [peek .Xs_pure, peek .Thetas_pure, run .psis, run .dpsis_dT, run .Theta_pure_Psi_sum_invs, run .Fs_pure]
  | .d2lnGammas_subgroups_pure_dT2 => [run .Thetas_pure, run .psis, run .dpsis_dT, run .d2psis_dT2, run .Theta_pure_Psi_sum_invs, run .Fs_pure,
    run .Gs_pure]
  | .d3lnGammas_subgroups_pure_dT3 => [run .Thetas_pure, run .psis, run .dpsis_dT, run .d2psis_dT2, run .d3psis_dT3, peek .Theta_pure_Psi_sum_invs,
    run .Fs_pure, run .Gs_pure, run .Hs_pure]
  | .lngammas_r => [run .lnGammas_subgroups, run .lnGammas_subgroups_pure]
  | .dlngammas_r_dT => [run .dlnGammas_subgroups_dT, run .dlnGammas_subgroups_pure_dT]
  | .d2lngammas_r_dT2 => [run .d2lnGammas_subgroups_dT2, run .d2lnGammas_subgroups_pure_dT2]
  | .d3lngammas_r_dT3 => [run .d3lnGammas_subgroups_dT3, run .d3lnGammas_subgroups_pure_dT3]
  | .dlngammas_r_dxs => [run .dlnGammas_subgroups_dxs]
  | .d2lngammas_r_dTdxs => [run .d2lnGammas_subgroups_dTdxs]
  | .d2lngammas_r_dxixjs => [run .d2lnGammas_subgroups_dxixjs]
  | .lngammas_c => [run .Vis, run .Fis] ++ o.whenModified [run .Vis_modified]
  | .dlngammas_c_dxs => [run .Vis, run .dVis_dxs, run .Fis, run .dFis_dxs] ++ o.whenModified [run .Vis_modified, run .dVis_modified_dxs]
  | .d2lngammas_c_dxixjs => [run .Vis, run .dVis_dxs, run .d2Vis_dxixjs, run .Fis, run .dFis_dxs,
    run .d2Fis_dxixjs] ++ o.whenModified [run .Vis_modified, run .dVis_modified_dxs, run .d2Vis_modified_dxixjs]
  | .d3lngammas_c_dxixjxks => [run .Vis, run .dVis_dxs, run .d2Vis_dxixjs, run .d3Vis_dxixjxks, run .Fis, run .dFis_dxs, run .d2Fis_dxixjs,
    run .d3Fis_dxixjxks] ++ o.whenModified [run .Vis_modified, run .dVis_modified_dxs, run .d2Vis_modified_dxixjs, run .d3Vis_modified_dxixjxks]
  | .GE => o.whenMany ([run .lngammas_r] ++ o.whenComb [run .lngammas_c])
  | .dGE_dxs => [run .lngammas_r, run .dlngammas_r_dxs] ++ o.whenComb [run .lngammas_c, run .dlngammas_c_dxs]
  | .d2GE_dTdxs => [run .lngammas_r, run .dlngammas_r_dT, run .dlngammas_r_dxs, run .d2lngammas_r_dTdxs] ++ o.whenComb [run .lngammas_c,
    run .dlngammas_c_dxs]
  | .d2GE_dxixjs => [run .dlngammas_r_dxs, run .d2lngammas_r_dxixjs] ++ o.whenMany (o.whenComb [run .dlngammas_c_dxs, run .d2lngammas_c_dxixjs])
  | .dGE_dT => [run .dlngammas_r_dT, run .GE]
  | .d2GE_dT2 => [run .dlngammas_r_dT, run .d2lngammas_r_dT2]
  | .d3GE_dT3 => [run .d2lngammas_r_dT2, run .d3lngammas_r_dT3]
  | .gammas => [run .lngammas_r] ++ o.whenComb [run .lngammas_c]
  | .dgammas_dT => [run .dlngammas_r_dT, run .gammas]
  | .dgammas_dxs => [run .gammas, run .dlngammas_r_dxs] ++ o.whenComb [run .dlngammas_c_dxs]
  | .dgammas_dns => [run .dgammas_dxs]

/-- Methods that read the temperature. -/
def usesT (n : Name) : Bool := ([
   .psis, .dpsis_dT, .d2psis_dT2, .d3psis_dT3, .GE, .dGE_dxs, .d2GE_dTdxs, .d2GE_dxixjs, .dGE_dT, .d2GE_dT2, .d3GE_dT3].elem n)

/-- Methods that read the composition. -/
def usesX (n : Name) : Bool := ([
   .Vis, .rx_sum_inv, .Fis, .qx_sum_inv, .Vis_modified, .r34x_sum_inv, .Xs, .Xs_sum_inv, .VSXS, .GE, .dGE_dxs, .d2GE_dTdxs, .d2GE_dxixjs,
   .dGE_dT, .d2GE_dT2, .d3GE_dT3, .gammas, .dgammas_dxs, .dgammas_dns].elem n)

/-- The sum which a method stores along with its result (6040, 6183, 6332, 6477, 6514). -/
def partner : Name → Option Name
  | .Vis => some .rx_sum_inv
  | .Fis => some .qx_sum_inv
  | .Vis_modified => some .r34x_sum_inv
  | .Xs => some .Xs_sum_inv
  | .Thetas => some .Thetas_sum_inv
  | _ => none

/-- The method that stores a sum. -/
def producer : Name → Option Name
  | .rx_sum_inv => some .Vis
  | .qx_sum_inv => some .Fis
  | .r34x_sum_inv => some .Vis_modified
  | .Xs_sum_inv => some .Xs
  | .Thetas_sum_inv => some .Thetas
  | _ => none

variable {V τ χ : Type}

/-- What the methods compute from the results they read, the temperature and the composition. -/
abbrev Fn (V τ χ : Type) := Name → List V → Option τ → Option χ → V

/-- The stored results of an object. -/
abbrev Cache (V : Type) := Name → Option V

/-- A method applied to values. -/
def apply (fn : Fn V τ χ) (T : τ) (x : χ) (n : Name) (vs : List V) : V :=
  fn n vs (if usesT n then some T else none) (if usesX n then some x else none)

/-- Storing a result and its sum. -/
def store (fn : Fn V τ χ) (T : τ) (x : χ) (n : Name) (vs : List V) (c : Cache V) : Cache V :=
  match partner n with
  | none => Function.update c n (some (apply fn T x n vs))
  | some p => Function.update (Function.update c n (some (apply fn T x n vs))) p (some (apply fn T x p vs))

/-- Reading the results in order; stops at the first that fails. -/
def readAll (call : Name → Cache V → Option V × Cache V) : List Dep → Cache V → Option (List V) × Cache V
  | [], c => (some [], c)
  | .peek n :: l, c =>
    match c n with
    | none => (none, c)
    | some v => match readAll call l c with
      | (some vs, c') => (some (v :: vs), c')
      | (none, c') => (none, c')
  | .run n :: l, c =>
    match call n c with
    | (none, c') => (none, c')
    | (some v, c') => match readAll call l c' with
      | (some vs, c'') => (some (v :: vs), c'')
      | (none, c'') => (none, c'')

/-- A method call: the stored result, or the results it reads and then its own. The number bounds the depth of calls. -/
def call (fn : Fn V τ χ) (o : Opt) (T : τ) (x : χ) : ℕ → Name → Cache V → Option V × Cache V
  | 0, _, c => (none, c)
  | k + 1, n, c =>
    match c n with
    | some v => (some v, c)
    | none =>
      match producer n with
      | some m =>
        let r := call fn o T x k m c
        match r.1 with
        | none => (none, r.2)
        | some _ => (r.2 n, r.2)
      | none =>
        if n = .Vis_modified ∧ o.modified = false then (none, c)
        else
          match readAll (call fn o T x k) (deps o n) c with
          | (none, c') => (none, c')
          | (some vs, c') => (some (apply fn T x n vs), store fn T x n vs c')

/-- A call from outside. -/
def method (fn : Fn V τ χ) (o : Opt) (T : τ) (x : χ) (n : Name) (c : Cache V) : Option V × Cache V := call fn o T x 100 n c

/-- A new object (5569-5570). -/
def fresh (fn : Fn V τ χ) (o : Opt) (T : τ) (x : χ) : Cache V :=
  (method fn o T x .Xs_pure (method fn o T x .Thetas_pure fun _ => none).2).2

/-- Results handed on at the same temperature (5626-5661). -/
def keptT : List Name :=
  [.psis, .dpsis_dT, .d2psis_dT2, .d3psis_dT3, .lnGammas_subgroups_pure, .dlnGammas_subgroups_pure_dT, .d2lnGammas_subgroups_pure_dT2,
   .d3lnGammas_subgroups_pure_dT3]

/-- Results handed on at the same composition (5662-5737). -/
def keptX : List Name :=
  [.Fis, .qx_sum_inv, .dFis_dxs, .d2Fis_dxixjs, .d3Fis_dxixjxks, .Vis_modified, .r34x_sum_inv, .dVis_modified_dxs, .d2Vis_modified_dxixjs,
   .d3Vis_modified_dxixjxks, .Xs, .Thetas, .Thetas_sum_inv, .Xs_sum_inv, .dThetas_dxs, .d2Thetas_dxixjs, .lngammas_c, .dlngammas_c_dxs,
   .d2lngammas_c_dxixjs, .d3lngammas_c_dxixjxks]

/-- `to_T_xs` (5572-5742). -/
def toTXs [DecidableEq τ] [DecidableEq χ] (T : τ) (x : χ) (T' : τ) (x' : χ) (c : Cache V) : Cache V := fun n =>
  if n = .Xs_pure ∨ n = .Thetas_pure ∨ (T' = T ∧ n ∈ keptT) ∨ (x' = x ∧ n ∈ keptX) then c n else none

/-- The objects a program can have: new ones, after any method, copies at other states. -/
inductive Reach [DecidableEq τ] [DecidableEq χ] (fn : Fn V τ χ) (o : Opt) : τ → χ → Cache V → Prop
  /-- constructed -/
  | new (T : τ) (x : χ) : Reach fn o T x (fresh fn o T x)
  /-- after a method, also one that raised -/
  | after {T : τ} {x : χ} {c : Cache V} (n : Name) : Reach fn o T x c → Reach fn o T x (method fn o T x n c).2
  /-- at another state -/
  | copy {T : τ} {x : χ} {c : Cache V} (T' : τ) (x' : χ) : Reach fn o T x c → Reach fn o T' x' (toTXs T x T' x' c)

/-! ## Specification: values without storing anything -/

/-- `val` is the family of results at a state: each is what its method computes from the others. -/
def Solves (fn : Fn V τ χ) (o : Opt) (T : τ) (x : χ) (val : Name → V) : Prop :=
  ∀ n, val n = fn n ((deps o n).map fun d => val d.name) (if usesT n then some T else none) (if usesX n then some x else none)

/-- Names that lead to the third derivative of pure groups. -/
def third (n : Name) : Bool := ([.d3lnGammas_subgroups_pure_dT3, .d3lngammas_r_dT3, .d3GE_dT3] : List Name).elem n

/-- Names that need `rs_34`. -/
def needs (n : Name) : Bool :=
  ([.Vis_modified, .r34x_sum_inv, .dVis_modified_dxs, .d2Vis_modified_dxixjs, .d3Vis_modified_dxixjxks] : List Name).elem n

/-! ## Facts about the table -/

/-- Checks of one entry. -/
def entryOk (o : Opt) (n : Name) (d : Dep) : Bool :=
  decide (d.name.pos < n.pos) && (!third d.name || third n) && (!needs d.name || needs n || o.modified) &&
    match d with
    | .run _ => true
    | .peek p => decide (p = .Xs_pure) || decide (p = .Thetas_pure) || (decide (p = .Theta_pure_Psi_sum_invs) && third n)

theorem table (o : Opt) (n : Name) : (deps o n).all (entryOk o n) = true := by
  rcases o with ⟨_ | _, _ | _, _ | _⟩ <;> cases n <;> rfl

theorem entry {o : Opt} {n : Name} {d : Dep} (h : d ∈ deps o n) :
    d.name.pos < n.pos ∧ (third d.name = true → third n = true) ∧ (needs d.name = true → needs n = true ∨ o.modified = true) ∧
    ∀ p, d = .peek p → p = .Xs_pure ∨ p = .Thetas_pure ∨ (p = .Theta_pure_Psi_sum_invs ∧ third n = true) := by
  have h1 := List.all_eq_true.1 (table o n) d h
  unfold entryOk at h1
  simp only [Bool.and_eq_true, decide_eq_true_eq, Bool.or_eq_true, Bool.not_eq_true'] at h1
  obtain ⟨⟨⟨h2, h3⟩, h4⟩, h5⟩ := h1
  refine ⟨h2, ?_, ?_, ?_⟩
  · intro h
    rcases h3 with h3 | h3
    · rw [h] at h3; cases h3
    · exact h3
  · intro h
    rcases h4 with (h4 | h4) | h4
    · rw [h] at h4; cases h4
    · exact Or.inl h4
    · exact Or.inr h4
  · intro p hp
    subst hp
    simp only [Bool.or_eq_true, decide_eq_true_eq, Bool.and_eq_true] at h5
    tauto

theorem sums {o : Opt} {n m : Name} (h : producer n = some m) :
    m.pos < n.pos ∧ partner m = some n ∧ deps o n = deps o m ∧ usesT n = usesT m ∧ usesX n = usesX m ∧ third m = third n ∧ needs m = needs n ∧
      producer m = none := by
  cases n <;> simp only [producer, Option.some.injEq, reduceCtorEq] at h <;> subst h <;> refine ⟨by decide, rfl, rfl, rfl, rfl, rfl, rfl, rfl⟩

theorem partner_producer {n p : Name} (h : partner n = some p) : producer p = some n ∧ p ≠ n := by
  cases n <;> simp only [partner, Option.some.injEq, reduceCtorEq] at h <;> subst h <;> exact ⟨rfl, by decide⟩

theorem pos_lt (n : Name) : n.pos < 100 := by cases n <;> decide

/-! ## The values exist and are unique -/

/-- Values by recursion. -/
def valueAt (fn : Fn V τ χ) (o : Opt) (T : τ) (x : χ) : ℕ → Name → V
  | 0, n => fn n [] none none
  | k + 1, n => apply fn T x n ((deps o n).map fun d => valueAt fn o T x k d.name)

theorem valueAt_stable (fn : Fn V τ χ) (o : Opt) (T : τ) (x : χ) : ∀ k k' n, n.pos < k → n.pos < k' →
    valueAt fn o T x k n = valueAt fn o T x k' n := by
  intro k
  induction k with
  | zero => intro k' n h; exact absurd h (Nat.not_lt_zero _)
  | succ k ih =>
    intro k' n h h'
    cases k' with
    | zero => exact absurd h' (Nat.not_lt_zero _)
    | succ k' =>
      unfold valueAt
      congr 1
      refine List.map_congr_left fun d hd => ?_
      have := (entry hd).1
      exact ih k' d.name (by omega) (by omega)

/-- The values of all results at a state. -/
def value (fn : Fn V τ χ) (o : Opt) (T : τ) (x : χ) : Name → V := valueAt fn o T x 100

theorem value_solves (fn : Fn V τ χ) (o : Opt) (T : τ) (x : χ) : Solves fn o T x (value fn o T x) := by
  intro n
  unfold value
  rw [valueAt_stable fn o T x 100 101 n (pos_lt n) (by have := pos_lt n; omega), valueAt]
  rfl

/-- There is exactly one family of results at each state. -/
theorem C135_values (fn : Fn V τ χ) (o : Opt) (T : τ) (x : χ) (val : Name → V) : Solves fn o T x val ↔ val = value fn o T x := by
  constructor
  · intro h
    funext n
    suffices ∀ k n, n.pos < k → val n = value fn o T x n from this 100 n (pos_lt n)
    intro k
    induction k with
    | zero => intro n h; exact absurd h (Nat.not_lt_zero _)
    | succ k ih =>
      intro n hn
      rw [h n, value_solves fn o T x n]
      congr 1
      refine List.map_congr_left fun d hd => ?_
      exact ih d.name (by have := (entry hd).1; omega)
  · rintro rfl
    exact value_solves fn o T x

/-! ## Calls keep the stored results right -/

/-- Everything stored is right, and sums are stored with their results. -/
structure Inv (val : Name → V) (c : Cache V) : Prop where
  right : ∀ n v, c n = some v → v = val n
  pair : ∀ n p, partner n = some p → (c n).isSome = true → (c p).isSome = true

/-- Nothing is forgotten. -/
def Grows (c c' : Cache V) : Prop := ∀ n, (c n).isSome = true → (c' n).isSome = true

theorem Grows.trans {c c' c'' : Cache V} (h : Grows c c') (h' : Grows c' c'') : Grows c c'' := fun n hn => h' n (h n hn)

theorem store_inv {fn : Fn V τ χ} {o : Opt} {T : τ} {x : χ} {val : Name → V} (hv : Solves fn o T x val) {n : Name} {vs : List V}
    (hvs : vs = (deps o n).map fun d => val d.name) {c : Cache V} (h : Inv val c) :
    Inv val (store fn T x n vs c) ∧ Grows c (store fn T x n vs c) ∧ apply fn T x n vs = val n := by
  have ha : apply fn T x n vs = val n := by rw [hv n, hvs]; rfl
  unfold store
  cases hp : partner n with
  | none =>
    dsimp only
    refine ⟨⟨?_, ?_⟩, ?_, ha⟩
    · intro m v hm
      by_cases e : m = n
      · subst e; simp only [Function.update_self, Option.some.injEq] at hm; rw [← hm, ha]
      · rw [Function.update_of_ne e] at hm; exact h.right m v hm
    · intro m p hmp hm
      by_cases e : m = n
      · subst e; rw [hp] at hmp; cases hmp
      · rw [Function.update_of_ne e] at hm
        by_cases e' : p = n
        · subst e'; simp
        · rw [Function.update_of_ne e']; exact h.pair m p hmp hm
    · intro m hm
      by_cases e : m = n
      · subst e; simp
      · rw [Function.update_of_ne e]; exact hm
  | some p =>
    obtain ⟨hpp, hpn⟩ := partner_producer hp
    obtain ⟨-, -, hd, hT, hX, -⟩ := sums (o := o) hpp
    have hap : apply fn T x p vs = val p := by
      rw [hv p, hvs, hd]; rfl
    dsimp only
    refine ⟨⟨?_, ?_⟩, ?_, ha⟩
    · intro m v hm
      by_cases e : m = p
      · subst e; simp only [Function.update_self, Option.some.injEq] at hm; rw [← hm, hap]
      · rw [Function.update_of_ne e] at hm
        by_cases e' : m = n
        · subst e'; simp only [Function.update_self, Option.some.injEq] at hm; rw [← hm, ha]
        · rw [Function.update_of_ne e'] at hm; exact h.right m v hm
    · intro m q hmq hm
      by_cases e : m = n
      · subst e
        rw [hp, Option.some.injEq] at hmq
        subst hmq
        simp
      · by_cases eq : q = p
        · subst eq; simp
        · rw [Function.update_of_ne eq]
          by_cases eqn : q = n
          · subst eqn; simp
          · rw [Function.update_of_ne eqn]
            refine h.pair m q hmq ?_
            by_cases emp : m = p
            · subst emp
              exfalso
              have := (partner_producer hmq).1
              have h8 := (sums (o := o) hpp).2.1
              revert hmq hpp
              cases m <;> simp [partner, producer]
            · rwa [Function.update_of_ne emp, Function.update_of_ne e] at hm
    · intro m hm
      by_cases e : m = p
      · subst e; simp
      · rw [Function.update_of_ne e]
        by_cases e' : m = n
        · subst e'; simp
        · rw [Function.update_of_ne e']; exact hm

theorem readAll_sound {val : Name → V} {call : Name → Cache V → Option V × Cache V}
    (hc : ∀ n c, Inv val c → Inv val (call n c).2 ∧ Grows c (call n c).2 ∧ ∀ v, (call n c).1 = some v → v = val n) :
    ∀ l c, Inv val c → Inv val (readAll call l c).2 ∧ Grows c (readAll call l c).2 ∧
      ∀ vs, (readAll call l c).1 = some vs → vs = l.map fun d => val d.name := by
  intro l
  induction l with
  | nil => intro c h; exact ⟨h, fun _ h => h, fun vs hv => by simp only [readAll, Option.some.injEq] at hv; simp [← hv]⟩
  | cons d l ih =>
    intro c h
    cases d with
    | peek n =>
      simp only [readAll]
      cases hn : c n with
      | none => exact ⟨h, fun _ h => h, fun vs hv => by cases hv⟩
      | some v =>
        obtain ⟨h1, h2, h3⟩ := ih c h
        rcases hr : readAll call l c with ⟨_ | vs, c'⟩
        · rw [hr] at h1 h2; exact ⟨h1, h2, fun vs hv => by cases hv⟩
        · rw [hr] at h1 h2 h3
          refine ⟨h1, h2, fun ws hw => ?_⟩
          simp only [Option.some.injEq] at hw
          rw [← hw, h3 vs rfl, List.map_cons, h.right n v hn]
          rfl
    | run n =>
      simp only [readAll]
      obtain ⟨g1, g2, g3⟩ := hc n c h
      rcases hn : call n c with ⟨_ | v, c'⟩
      · rw [hn] at g1 g2; exact ⟨g1, g2, fun vs hv => by cases hv⟩
      · rw [hn] at g1 g2 g3
        dsimp only
        obtain ⟨h1, h2, h3⟩ := ih c' g1
        rcases hr : readAll call l c' with ⟨_ | vs, c''⟩
        · rw [hr] at h1 h2; exact ⟨h1, g2.trans h2, fun vs hv => by cases hv⟩
        · rw [hr] at h1 h2 h3
          refine ⟨h1, g2.trans h2, fun ws hw => ?_⟩
          simp only [Option.some.injEq] at hw
          rw [← hw, h3 vs rfl, List.map_cons, g3 v rfl]
          rfl

theorem call_sound {fn : Fn V τ χ} {o : Opt} {T : τ} {x : χ} {val : Name → V} (hv : Solves fn o T x val) : ∀ k n c, Inv val c →
    Inv val (call fn o T x k n c).2 ∧ Grows c (call fn o T x k n c).2 ∧ ∀ v, (call fn o T x k n c).1 = some v → v = val n := by
  intro k
  induction k with
  | zero => intro n c h; exact ⟨h, fun _ h => h, fun v hv => by cases hv⟩
  | succ k ih =>
    intro n c h
    unfold call
    cases hn : c n with
    | some v => exact ⟨h, fun _ h => h, fun w hw => by simp only [Option.some.injEq] at hw; rw [← hw]; exact h.right n v hn⟩
    | none =>
      cases hp : producer n with
      | some m =>
        obtain ⟨h1, h2, h3⟩ := ih m c h
        dsimp only
        cases hr : (call fn o T x k m c).1 with
        | none => exact ⟨h1, h2, fun v hv => by cases hv⟩
        | some w => exact ⟨h1, h2, fun v hv => h1.right n v hv⟩
      | none =>
        dsimp only
        split_ifs with hm
        · exact ⟨h, fun _ h => h, fun v hv => by cases hv⟩
        · obtain ⟨h1, h2, h3⟩ := readAll_sound ih (deps o n) c h
          rcases hr : readAll (call fn o T x k) (deps o n) c with ⟨_ | vs, c'⟩
          · rw [hr] at h1 h2; exact ⟨h1, h2, fun v hv => by cases hv⟩
          · rw [hr] at h1 h2 h3
            obtain ⟨s1, s2, s3⟩ := store_inv hv (h3 vs rfl) h1
            refine ⟨s1, h2.trans s2, fun v hv => ?_⟩
            simp only [Option.some.injEq] at hv
            rw [← hv, s3]

theorem readAll_total {val : Name → V} {call : Name → Cache V → Option V × Cache V}
    (hs : ∀ n c, Inv val c → Inv val (call n c).2 ∧ Grows c (call n c).2 ∧ ∀ v, (call n c).1 = some v → v = val n) :
    ∀ l c, Inv val c → (∀ d ∈ l, ∀ c', Grows c c' → Inv val c' → match d with
      | .peek n => (c' n).isSome = true
      | .run n => (call n c').1.isSome = true) → (readAll call l c).1.isSome = true := by
  intro l
  induction l with
  | nil => intro c _ _; rfl
  | cons d l ih =>
    intro c h hd
    have h0 := hd d List.mem_cons_self c (fun _ h => h) h
    cases d with
    | peek n =>
      simp only [readAll]
      obtain ⟨v, hv⟩ := Option.isSome_iff_exists.1 h0
      rw [hv]
      have h1 := ih c h fun d' hd' c' hg hi => hd d' (List.mem_cons_of_mem _ hd') c' hg hi
      obtain ⟨vs, hvs⟩ := Option.isSome_iff_exists.1 h1
      rcases hr : readAll call l c with ⟨_ | vs, c'⟩
      · rw [hr] at hvs; cases hvs
      · rfl
    | run n =>
      simp only [readAll]
      obtain ⟨g1, g2, -⟩ := hs n c h
      rcases hn : call n c with ⟨_ | v, c'⟩
      · simp only [hn, Option.isSome_none, Bool.false_eq_true] at h0
      · rw [hn] at g1 g2
        dsimp only
        have h1 := ih c' g1 fun d' hd' c'' hg hi => hd d' (List.mem_cons_of_mem _ hd') c'' (g2.trans hg) hi
        obtain ⟨vs, hvs⟩ := Option.isSome_iff_exists.1 h1
        rcases hr : readAll call l c' with ⟨_ | vs, c''⟩
        · rw [hr] at hvs; cases hvs
        · rfl

/-- What is always stored. -/
def Ready (c : Cache V) : Prop := (c .Xs_pure).isSome = true ∧ (c .Thetas_pure).isSome = true

theorem call_total {fn : Fn V τ χ} {o : Opt} {T : τ} {x : χ} {val : Name → V} (hv : Solves fn o T x val) : ∀ k n c, n.pos < k → Inv val c →
    Ready c → (needs n = true → o.modified = true) → (third n = true → (c .Theta_pure_Psi_sum_invs).isSome = true) →
    (call fn o T x k n c).1 = some (val n) := by
  intro k
  induction k with
  | zero => intro n c h; exact absurd h (Nat.not_lt_zero _)
  | succ k ih =>
    intro n c hk h hr hm ht
    have hsound := call_sound hv (k + 1) n c h
    suffices (call fn o T x (k + 1) n c).1.isSome = true by
      obtain ⟨v, hv'⟩ := Option.isSome_iff_exists.1 this
      rw [hv', hsound.2.2 v hv']
    unfold call
    cases hn : c n with
    | some v => rfl
    | none =>
      cases hp : producer n with
      | some m =>
        obtain ⟨h1, h2, -, -, -, h3, h4, h5⟩ := sums (o := o) hp
        have hc := ih m c (by omega) h hr (fun hne => hm (h4 ▸ hne)) (fun hth => ht (h3 ▸ hth))
        dsimp only
        rw [hc]
        have hi := call_sound hv k m c h
        refine hi.1.pair m n h2 ?_
        -- after the call the producer is stored
        have stored : ∀ k c, (call fn o T x k m c).1.isSome = true → ((call fn o T x k m c).2 m).isSome = true := by
          intro k c hs
          cases k with
          | zero => cases hs
          | succ k =>
            unfold call at hs ⊢
            cases hcm : c m with
            | some v => simp [hcm]
            | none =>
              simp only [hcm, h5] at hs ⊢
              split_ifs at hs ⊢
              · cases hs
              · rcases hrr : readAll (call fn o T x k) (deps o m) c with ⟨_ | vs, c'⟩
                · rw [hrr] at hs; cases hs
                · simp only [store, h2]
                  rw [Function.update_of_ne (partner_producer h2).2.symm]
                  simp
        exact stored k c (by rw [hc]; rfl)
      | none =>
        dsimp only
        split_ifs with hmod
        · have := hm (by rw [hmod.1]; rfl)
          rw [hmod.2] at this; cases this
        · have htot := readAll_total (call_sound hv k) (deps o n) c h (by
            intro d hd c' hg hi
            obtain ⟨e1, e2, e3, e4⟩ := entry hd
            cases d with
            | peek p =>
              rcases e4 p rfl with e | e | ⟨e, e'⟩
              · rw [e]; exact hg _ hr.1
              · rw [e]; exact hg _ hr.2
              · rw [e]; exact hg _ (ht e')
            | run p =>
              have := ih p c' (by simp only [Dep.name] at e1; omega) hi ⟨hg _ hr.1, hg _ hr.2⟩
                (fun hne => (e3 hne).elim hm id) (fun hth => hg _ (ht (e2 hth)))
              simp only [this, Option.isSome_some])
          obtain ⟨vs, hvs⟩ := Option.isSome_iff_exists.1 htot
          rcases hrr : readAll (call fn o T x k) (deps o n) c with ⟨_ | ws, c'⟩
          · rw [hrr] at hvs; cases hvs
          · rfl

/-! ## Copies -/

/-- Results that do not depend on the composition. -/
def freeX (n : Name) : Bool :=
  ([.Xs_pure, .Thetas_pure, .psis, .dpsis_dT, .d2psis_dT2, .d3psis_dT3, .Theta_pure_Psi_sums, .Theta_pure_Psi_sum_invs, .Fs_pure, .Gs_pure,
    .Hs_pure, .lnGammas_subgroups_pure, .dlnGammas_subgroups_pure_dT, .d2lnGammas_subgroups_pure_dT2,
    .d3lnGammas_subgroups_pure_dT3] : List Name).elem n

/-- Results that do not depend on the temperature. -/
def freeT (n : Name) : Bool :=
  ([.Xs_pure, .Thetas_pure, .Vis, .rx_sum_inv, .dVis_dxs, .d2Vis_dxixjs, .d3Vis_dxixjxks, .Fis, .qx_sum_inv, .dFis_dxs, .d2Fis_dxixjs,
    .d3Fis_dxixjxks, .Vis_modified, .r34x_sum_inv, .dVis_modified_dxs, .d2Vis_modified_dxixjs, .d3Vis_modified_dxixjxks, .Xs, .Xs_sum_inv,
    .Thetas, .Thetas_sum_inv, .VSXS, .dThetas_dxs, .d2Thetas_dxixjs, .lngammas_c, .dlngammas_c_dxs, .d2lngammas_c_dxixjs,
    .d3lngammas_c_dxixjxks] : List Name).elem n

theorem closedX (o : Opt) (n : Name) : (!freeX n || (!usesX n && (deps o n).all fun d => freeX d.name)) = true := by
  rcases o with ⟨_ | _, _ | _, _ | _⟩ <;> cases n <;> rfl

theorem closedT (o : Opt) (n : Name) : (!freeT n || (!usesT n && (deps o n).all fun d => freeT d.name)) = true := by
  rcases o with ⟨_ | _, _ | _, _ | _⟩ <;> cases n <;> rfl

/-- Results that do not read the composition, directly or through others, are the same at all compositions. -/
theorem same_T (fn : Fn V τ χ) (o : Opt) (T : τ) (x x' : χ) : ∀ n, freeX n = true → value fn o T x n = value fn o T x' n := by
  suffices ∀ k n, n.pos < k → freeX n = true → value fn o T x n = value fn o T x' n from fun n => this 100 n (pos_lt n)
  intro k
  induction k with
  | zero => intro n h; exact absurd h (Nat.not_lt_zero _)
  | succ k ih =>
    intro n hn hf
    have hc := closedX o n
    rw [hf] at hc
    simp only [Bool.not_true, Bool.false_or, Bool.and_eq_true, Bool.not_eq_true', List.all_eq_true] at hc
    have e : ((deps o n).map fun d => value fn o T x d.name) = (deps o n).map fun d => value fn o T x' d.name :=
      List.map_congr_left fun d hd => ih d.name (by have := (entry hd).1; omega) (hc.2 d hd)
    rw [value_solves fn o T x n, value_solves fn o T x' n, hc.1, e]
    simp only [Bool.false_eq_true, if_false]

/-- Results that do not read the temperature are the same at all temperatures. -/
theorem same_x (fn : Fn V τ χ) (o : Opt) (T T' : τ) (x : χ) : ∀ n, freeT n = true → value fn o T x n = value fn o T' x n := by
  suffices ∀ k n, n.pos < k → freeT n = true → value fn o T x n = value fn o T' x n from fun n => this 100 n (pos_lt n)
  intro k
  induction k with
  | zero => intro n h; exact absurd h (Nat.not_lt_zero _)
  | succ k ih =>
    intro n hn hf
    have hc := closedT o n
    rw [hf] at hc
    simp only [Bool.not_true, Bool.false_or, Bool.and_eq_true, Bool.not_eq_true', List.all_eq_true] at hc
    have e : ((deps o n).map fun d => value fn o T x d.name) = (deps o n).map fun d => value fn o T' x d.name :=
      List.map_congr_left fun d hd => ih d.name (by have := (entry hd).1; omega) (hc.2 d hd)
    rw [value_solves fn o T x n, value_solves fn o T' x n, hc.1, e]
    simp only [Bool.false_eq_true, if_false]

theorem keptT_free : ∀ n ∈ keptT, freeX n = true := by decide

theorem keptX_free : ∀ n ∈ keptX, freeT n = true := by decide

theorem kept_pair {n p : Name} (h : partner n = some p) : (n ∈ keptX → p ∈ keptX) ∧ n ∉ keptT ∧ n ≠ .Xs_pure ∧ n ≠ .Thetas_pure := by
  cases n <;> simp only [partner, Option.some.injEq, reduceCtorEq] at h <;> subst h <;> decide

theorem copy_inv [DecidableEq τ] [DecidableEq χ] (fn : Fn V τ χ) (o : Opt) (T T' : τ) (x x' : χ) {c : Cache V} (h : Inv (value fn o T x) c)
    (hr : Ready c) : Inv (value fn o T' x') (toTXs T x T' x' c) ∧ Ready (toTXs T x T' x' c) := by
  refine ⟨⟨?_, ?_⟩, ?_, ?_⟩
  · intro n v hn
    unfold toTXs at hn
    split_ifs at hn with hk
    rw [h.right n v hn]
    have pureSame : freeX n = true → freeT n = true → value fn o T x n = value fn o T' x' n := fun h1 h2 => by
      rw [same_T fn o T x x' n h1, same_x fn o T T' x' n h2]
    rcases hk with rfl | rfl | ⟨rfl, hk⟩ | ⟨rfl, hk⟩
    · exact pureSame rfl rfl
    · exact pureSame rfl rfl
    · exact same_T fn o T' x x' n (keptT_free n hk)
    · exact same_x fn o T T' x' n (keptX_free n hk)
  · intro n p hp hn
    obtain ⟨k1, k2, k3, k4⟩ := kept_pair hp
    unfold toTXs at hn ⊢
    by_cases hx : x' = x ∧ n ∈ keptX
    · rw [if_pos (Or.inr (Or.inr (Or.inr ⟨hx.1, k1 hx.2⟩)))]
      rw [if_pos (Or.inr (Or.inr (Or.inr hx)))] at hn
      exact h.pair n p hp hn
    · rw [if_neg (by tauto)] at hn
      cases hn
  · unfold toTXs; simpa using hr.1
  · unfold toTXs; simpa using hr.2

theorem reach_inv [DecidableEq τ] [DecidableEq χ] {fn : Fn V τ χ} {o : Opt} {T : τ} {x : χ} {c : Cache V} (h : Reach fn o T x c) :
    Inv (value fn o T x) c ∧ Ready c := by
  induction h with
  | new T x =>
    have h0 : Inv (value fn o T x) fun _ => none := ⟨fun _ _ hn => (Option.some_ne_none _ hn.symm).elim, fun _ _ _ hn => (Bool.false_ne_true hn).elim⟩
    have h1 := call_sound (value_solves fn o T x) 100 .Thetas_pure _ h0
    have h2 := call_sound (value_solves fn o T x) 100 .Xs_pure _ h1.1
    exact ⟨h2.1, rfl, rfl⟩
  | after n _ ih =>
    rename_i T x c _
    have h1 := call_sound (value_solves fn o T x) 100 n c ih.1
    exact ⟨h1.1, h1.2.1 _ ih.2.1, h1.2.1 _ ih.2.2⟩
  | copy T' x' _ ih => exact copy_inv fn o _ T' _ x' ih.1 ih.2

/-! ## Theorems -/

/-- Whatever was done with an object before, methods called, copies at other temperatures and compositions, copies of copies: every method returns
the value it has at the state of the object, and none raises, except that the terms with the power of the volumes exist for versions 1 and 4 only
and that the third temperature derivatives need a stored intermediate result. -/
theorem C135_history_partial [DecidableEq τ] [DecidableEq χ] {fn : Fn V τ χ} {o : Opt} {T : τ} {x : χ} {c : Cache V} (h : Reach fn o T x c)
    {val : Name → V} (hv : Solves fn o T x val) (n : Name) (hm : needs n = true → o.modified = true)
    (ht : third n = true → (c .Theta_pure_Psi_sum_invs).isSome = true) : (method fn o T x n c).1 = some (val n) := by
  obtain ⟨hi, hr⟩ := reach_inv h
  rw [(C135_values fn o T x val).1 hv]
  exact call_total (value_solves fn o T x) 100 n c (pos_lt n) hi hr hm ht

/-- A method that returns something never returns anything else than the value at the state of the object. -/
theorem C135_never_stale [DecidableEq τ] [DecidableEq χ] {fn : Fn V τ χ} {o : Opt} {T : τ} {x : χ} {c : Cache V} (h : Reach fn o T x c)
    {val : Name → V} (hv : Solves fn o T x val) (n : Name) (v : V) (hr : (method fn o T x n c).1 = some v) : v = val n := by
  rw [(C135_values fn o T x val).1 hv]
  exact (call_sound (value_solves fn o T x) 100 n c (reach_inv h).1).2.2 v hr

/-- So a copy at a state gives what a new object at that state gives, for every method of this kind. -/
theorem C135_copy_partial [DecidableEq τ] [DecidableEq χ] {fn : Fn V τ χ} {o : Opt} {T T' : τ} {x x' : χ} {c : Cache V} (h : Reach fn o T x c)
    (n : Name) (hm : needs n = true → o.modified = true) (ht : third n = false) :
    (method fn o T' x' n (toTXs T x T' x' c)).1 = (method fn o T' x' n (fresh fn o T' x')).1 := by
  rw [C135_history_partial (h.copy T' x') (value_solves fn o T' x') n hm (by rw [ht]; intro h; cases h),
    C135_history_partial (.new T' x') (value_solves fn o T' x') n hm (by rw [ht]; intro h; cases h)]

/-- The activity coefficients and all first and second derivatives are of this kind, for every version. -/
example [DecidableEq τ] [DecidableEq χ] {fn : Fn V τ χ} {o : Opt} {T T' : τ} {x x' : χ} {c : Cache V} (h : Reach fn o T x c) :
    (method fn o T' x' .gammas (toTXs T x T' x' c)).1 = (method fn o T' x' .gammas (fresh fn o T' x')).1 ∧
    (method fn o T' x' .d2GE_dxixjs (toTXs T x T' x' c)).1 = (method fn o T' x' .d2GE_dxixjs (fresh fn o T' x')).1 :=
  ⟨C135_copy_partial h _ (by intro h; cases h) rfl, C135_copy_partial h _ (by intro h; cases h) rfl⟩

/-- Names and numbers of their operands: an instance in which values at different states differ. -/
def demo : Fn ℕ ℕ ℕ := fun n vs T x => n.pos + vs.sum + 1000 * T.getD 0 + 7000 * x.getD 0

example : (method demo ⟨true, false, false⟩ 3 4 .psis (fresh demo ⟨true, false, false⟩ 3 4)).1 ≠
    (method demo ⟨true, false, false⟩ 5 4 .psis (fresh demo ⟨true, false, false⟩ 5 4)).1 := by decide +kernel

/-- The third temperature derivative of the logarithmic activity coefficients cannot be had from a new object: it raises. -/
theorem C135_third_fails (fn : Fn V τ χ) (o : Opt) (T : τ) (x : χ) :
    (method fn o T x .d3lngammas_r_dT3 (fresh fn o T x)).1 = none ∧
    (method fn o T x .d3lnGammas_subgroups_pure_dT3 (fresh fn o T x)).1 = none := by
  constructor <;> rfl

/-- The third derivative of the excess Gibbs energy can, since it needs the second first; but not from a copy at the same temperature of an object
whose second derivative was computed: the copy takes over the second derivatives of the pure groups and not the sums they were made from. -/
theorem C135_third_history_fails (fn : Fn V τ ℕ) [DecidableEq τ] (o : Opt) (T : τ) :
    (method fn o T 1 .d3GE_dT3 (fresh fn o T 1)).1.isSome = true ∧
    (method fn o T 1 .d3GE_dT3 (toTXs T 0 T 1 (method fn o T 0 .d2GE_dT2 (fresh fn o T 0)).2)).1 = none := by
  have hc : ∀ c : Cache V, toTXs T 0 T 1 c = fun n => if n = .Xs_pure ∨ n = .Thetas_pure ∨ n ∈ keptT then c n else none := by
    intro c
    funext n
    simp [toTXs]
  rw [hc]
  rcases o with ⟨_ | _, _ | _, _ | _⟩ <;> constructor <;> rfl

/-- The terms with the power of the volumes raise for the other versions. -/
theorem C135_modified_fails [DecidableEq τ] [DecidableEq χ] {fn : Fn V τ χ} {o : Opt} (ho : o.modified = false) (T : τ) (x : χ) :
    (method fn o T x .Vis_modified (fresh fn o T x)).1 = none := by
  rcases o with ⟨_ | _, s, t⟩
  · rfl
  · cases ho

/-! ## Construction from groups (4006-4020, 5314-5467) -/

/-- A row of a table of subgroups. -/
structure Sub where
  /-- volume -/
  R : ℝ
  /-- area -/
  Q : ℝ
  /-- main group -/
  main : ℕ

/-- A component: its dictionary of groups and counts. -/
abbrev Groups := List (ℕ × ℝ)

/-- `groups.get(k, 0)`. -/
def count (g : Groups) (k : ℕ) : ℝ := (g.lookup k).getD 0

/-- The sorted keys of all components (4015-4017, 5427-5436). -/
def groupList (cs : List Groups) : List ℕ := (cs.flatMap fun g => g.map Prod.fst).dedup.insertionSort (· ≤ ·)

/-- `chemgroups_to_matrix` (4006-4020). -/
def groupMatrix (cs : List Groups) : List (List ℝ) := (groupList cs).map fun k => cs.map fun g => count g k

/-- The sums over the groups of one component (5414-5423); `none` is the `KeyError` of an unknown group. -/
def sumOver (f : ℕ → Option ℝ) : Groups → Option ℝ
  | [] => some 0
  | (k, n) :: g => do
    let a ← f k
    let r ← sumOver f g
    return a * n + r

/-- What `from_subgroups` hands to the constructor. -/
structure Built where
  rs : List ℝ
  qs : List ℝ
  Qs : List ℝ
  vs : List (List ℝ)
  a : List (List ℝ)
  b : List (List ℝ)
  c : List (List ℝ)

/-- The interaction of two groups (5445-5460). -/
def pairData (subgroups : ℕ → Option Sub) (data : ℕ → ℕ → Option Unifac.Entry) (k l : ℕ) : Option (ℝ × ℝ × ℝ) := do
  let s ← subgroups k
  let t ← subgroups l
  return Unifac.abc (data s.main t.main)

/-- The `from_subgroups` method (5411-5461) with the tables given. Tables are functions; entries are one number or three. -/
def fromSubgroups (version : ℕ) (subgroups : ℕ → Option Sub) (data : ℕ → ℕ → Option Unifac.Entry) (cs : List Groups) : Option Built := do
  let rs ← cs.mapM (sumOver fun k => if version = 3 then some 0 else (subgroups k).map Sub.R)
  let qs ← cs.mapM (sumOver fun k => (subgroups k).map Sub.Q)
  let Qs ← (groupList cs).mapM fun k => (subgroups k).map Sub.Q
  let m ← (groupList cs).mapM fun k => (groupList cs).mapM fun l => pairData subgroups data k l
  return ⟨rs, qs, Qs, groupMatrix cs, m.map fun r => r.map fun e => e.1, m.map fun r => r.map fun e => e.2.1, m.map fun r => r.map fun e => e.2.2⟩

/-- Every group of every component is in the table. -/
def Known (subgroups : ℕ → Option Sub) (cs : List Groups) : Prop := ∀ g ∈ cs, ∀ e ∈ g, (subgroups e.1).isSome = true

/-- The rows are in increasing order of the group, without repetition, and there is one for exactly the groups of the components. -/
theorem C135_group_list (cs : List Groups) :
    (groupList cs).Pairwise (· < ·) ∧ ∀ k, k ∈ groupList cs ↔ ∃ g ∈ cs, ∃ n, (k, n) ∈ g := by
  refine ⟨?_, fun k => by simp [groupList, List.mem_flatMap]⟩
  have h1 : (groupList cs).Pairwise (· ≤ ·) := List.pairwise_insertionSort _ _
  have h2 : (groupList cs).Nodup := ((List.perm_insertionSort _ _).nodup_iff).2 (List.nodup_dedup _)
  exact (h1.and h2).imp fun h => lt_of_le_of_ne h.1 h.2

theorem sumOver_some {f : ℕ → Option ℝ} {h : ℕ → ℝ} {g : Groups} (hf : ∀ e ∈ g, f e.1 = some (h e.1)) :
    sumOver f g = some (g.map fun e => h e.1 * e.2).sum := by
  induction g with
  | nil => rfl
  | cons e g ih =>
    obtain ⟨k, n⟩ := e
    rw [sumOver, hf _ List.mem_cons_self, ih fun e he => hf e (List.mem_cons_of_mem _ he)]
    simp

theorem sumOver_none {f : ℕ → Option ℝ} {g : Groups} {e : ℕ × ℝ} (he : e ∈ g) (hf : f e.1 = none) : sumOver f g = none := by
  induction g with
  | nil => cases he
  | cons e' g ih =>
    obtain ⟨k, n⟩ := e'
    rcases List.mem_cons.1 he with rfl | he
    · rw [sumOver, hf]; rfl
    · rw [sumOver, ih he]
      cases f k <;> rfl

theorem mapM_some {α β : Type} {f : α → Option β} {h : α → β} {l : List α} (hf : ∀ a ∈ l, f a = some (h a)) : l.mapM f = some (l.map h) := by
  induction l with
  | nil => rfl
  | cons a l ih =>
    rw [List.mapM_cons, hf a List.mem_cons_self, ih fun a ha => hf a (List.mem_cons_of_mem _ ha)]
    rfl

theorem mapM_none {α β : Type} {f : α → Option β} {l : List α} {a : α} (ha : a ∈ l) (hf : f a = none) : l.mapM f = none := by
  induction l with
  | nil => cases ha
  | cons b l ih =>
    rw [List.mapM_cons]
    rcases List.mem_cons.1 ha with rfl | ha
    · rw [hf]; rfl
    · rw [ih ha]; cases f b <;> rfl

/-- The sum over the dictionary is the sum over all rows. -/
theorem sum_rows {cs : List Groups} {g : Groups} (hg : g ∈ cs) (hn : (g.map Prod.fst).Nodup) (h : ℕ → ℝ) :
    (g.map fun e => h e.1 * e.2).sum = ((groupList cs).map fun k => h k * count g k).sum := by
  have h1 : ((groupList cs).map fun k => h k * count g k).sum = ∑ k ∈ (groupList cs).toFinset, h k * count g k :=
    (List.sum_toFinset _ ((C135_group_list cs).1.imp fun h => h.ne)).symm
  have h2 : ∀ g : Groups, (g.map Prod.fst).Nodup → (g.map fun e => h e.1 * e.2).sum = ∑ k ∈ (g.map Prod.fst).toFinset, h k * count g k := by
    intro g hn
    rw [List.sum_toFinset _ hn, List.map_map]
    congr 1
    refine List.map_congr_left fun e he => ?_
    have : g.lookup e.1 = some e.2 := by
      clear h1
      induction g with
      | nil => cases he
      | cons e' g ih =>
        obtain ⟨k, n⟩ := e'
        rw [List.map_cons, List.nodup_cons] at hn
        rcases List.mem_cons.1 he with rfl | he
        · simp [List.lookup]
        · have hne : e.1 ≠ k := by
            rintro rfl
            exact hn.1 (List.mem_map.2 ⟨e, by assumption, rfl⟩)
          rw [List.lookup, beq_false_of_ne hne]
          exact ih hn.2 he
    simp only [Function.comp, count, this, Option.getD_some]
  rw [h1, h2 g hn]
  refine Finset.sum_subset ?_ ?_
  · intro k hk
    rw [List.mem_toFinset, List.mem_map] at hk
    obtain ⟨e, he, rfl⟩ := hk
    exact List.mem_toFinset.2 (((C135_group_list cs).2 _).2 ⟨g, hg, e.2, he⟩)
  · intro k _ hk
    have : g.lookup k = none := by
      rw [List.lookup_eq_none_iff]
      intro e he
      rw [bne_iff_ne]
      rintro rfl
      exact hk (List.mem_toFinset.2 (List.mem_map.2 ⟨e, he, rfl⟩))
    simp [count, this]

/-- The parameters of a subgroup, zero when it is unknown. -/
def R (subgroups : ℕ → Option Sub) (k : ℕ) : ℝ := ((subgroups k).map Sub.R).getD 0

/-- The same for the area. -/
def Q (subgroups : ℕ → Option Sub) (k : ℕ) : ℝ := ((subgroups k).map Sub.Q).getD 0

/-- A model is built exactly when all groups are in the table. -/
theorem C135_known (version : ℕ) (subgroups : ℕ → Option Sub) (data : ℕ → ℕ → Option Unifac.Entry) (cs : List Groups) :
    (fromSubgroups version subgroups data cs).isSome = true ↔ Known subgroups cs := by
  constructor
  · intro h g hg e he
    by_contra hn
    have hn' : subgroups e.1 = none := by simpa using hn
    have hq : cs.mapM (sumOver fun k => (subgroups k).map Sub.Q) = none := mapM_none hg (sumOver_none he (by rw [hn']; rfl))
    unfold fromSubgroups at h
    rw [hq] at h
    cases hr : cs.mapM (sumOver fun k => if version = 3 then some 0 else (subgroups k).map Sub.R) <;> rw [hr] at h <;> cases h
  · intro h
    have hl : ∀ k ∈ groupList cs, ∃ s, subgroups k = some s := by
      intro k hk
      obtain ⟨g, hg, n, he⟩ := ((C135_group_list cs).2 k).1 hk
      exact Option.isSome_iff_exists.1 (h g hg (k, n) he)
    unfold fromSubgroups
    rw [mapM_some (h := fun g => (g.map fun e => (if version = 3 then 0 else R subgroups e.1) * e.2).sum) fun g hg => sumOver_some
        (h := fun k => if version = 3 then 0 else R subgroups k) fun e he => by
          obtain ⟨s, hs⟩ := Option.isSome_iff_exists.1 (h g hg e he)
          split_ifs <;> simp [R, hs],
      mapM_some (h := fun g => (g.map fun e => Q subgroups e.1 * e.2).sum) fun g hg => sumOver_some (h := Q subgroups) fun e he => by
          obtain ⟨s, hs⟩ := Option.isSome_iff_exists.1 (h g hg e he)
          simp [Q, hs],
      mapM_some (h := Q subgroups) fun k hk => by
          obtain ⟨s, hs⟩ := hl k hk
          simp [Q, hs],
      mapM_some (h := fun k => (groupList cs).map fun l => (pairData subgroups data k l).getD (0, 0, 0)) fun k hk =>
        mapM_some (h := fun l => (pairData subgroups data k l).getD (0, 0, 0)) fun l hl' => by
          obtain ⟨s, hs⟩ := hl k hk
          obtain ⟨t, ht⟩ := hl l hl'
          simp [pairData, hs, ht]]
    rfl

/-- What is built: the volume and the area of a component are the sums over the rows of the matrix of counts, with zero volumes for version 3; rows
of counts, areas and interactions belong to the same groups; the interaction of two groups is that of their main groups, zero where the table has
none. -/
theorem C135_built (version : ℕ) (subgroups : ℕ → Option Sub) (data : ℕ → ℕ → Option Unifac.Entry) (cs : List Groups)
    (hn : ∀ g ∈ cs, (g.map Prod.fst).Nodup) {m : Built} (h : fromSubgroups version subgroups data cs = some m) :
    m.rs = cs.map (fun g => if version = 3 then 0 else ((groupList cs).map fun k => R subgroups k * count g k).sum) ∧
    m.qs = cs.map (fun g => ((groupList cs).map fun k => Q subgroups k * count g k).sum) ∧
    m.Qs = (groupList cs).map (Q subgroups) ∧
    m.vs = (groupList cs).map (fun k => cs.map fun g => count g k) ∧
    (∃ main : ℕ → ℕ, (∀ k ∈ groupList cs, ∃ s, subgroups k = some s ∧ main k = s.main) ∧
      m.a = (groupList cs).map (fun k => (groupList cs).map fun l => (Unifac.abc (data (main k) (main l))).1) ∧
      m.b = (groupList cs).map (fun k => (groupList cs).map fun l => (Unifac.abc (data (main k) (main l))).2.1) ∧
      m.c = (groupList cs).map (fun k => (groupList cs).map fun l => (Unifac.abc (data (main k) (main l))).2.2)) := by
  have hk : Known subgroups cs := (C135_known version subgroups data cs).1 (by rw [h]; rfl)
  have hl : ∀ k ∈ groupList cs, ∃ s, subgroups k = some s := by
    intro k hk'
    obtain ⟨g, hg, n, he⟩ := ((C135_group_list cs).2 k).1 hk'
    exact Option.isSome_iff_exists.1 (hk g hg (k, n) he)
  unfold fromSubgroups at h
  rw [mapM_some (h := fun g => (g.map fun e => (if version = 3 then 0 else R subgroups e.1) * e.2).sum) fun g hg => sumOver_some
      (h := fun k => if version = 3 then 0 else R subgroups k) fun e he => by
        obtain ⟨s, hs⟩ := Option.isSome_iff_exists.1 (hk g hg e he)
        split_ifs <;> simp [R, hs],
    mapM_some (h := fun g => (g.map fun e => Q subgroups e.1 * e.2).sum) fun g hg => sumOver_some (h := Q subgroups) fun e he => by
        obtain ⟨s, hs⟩ := Option.isSome_iff_exists.1 (hk g hg e he)
        simp [Q, hs],
    mapM_some (h := Q subgroups) fun k hk => by
        obtain ⟨s, hs⟩ := hl k hk
        simp [Q, hs],
    mapM_some (h := fun k => (groupList cs).map fun l => (pairData subgroups data k l).getD (0, 0, 0)) fun k hk =>
      mapM_some (h := fun l => (pairData subgroups data k l).getD (0, 0, 0)) fun l hl' => by
        obtain ⟨s, hs⟩ := hl k hk
        obtain ⟨t, ht⟩ := hl l hl'
        simp [pairData, hs, ht]] at h
  simp only [bind, pure, Option.bind_some, Option.some.injEq] at h
  subst h
  refine ⟨?_, ?_, rfl, rfl, fun k => ((subgroups k).map Sub.main).getD 0, ?_, ?_, ?_, ?_⟩
  · refine List.map_congr_left fun g hg => ?_
    split_ifs with hv
    · simp
    · exact sum_rows hg (hn g hg) (R subgroups)
  · exact List.map_congr_left fun g hg => sum_rows hg (hn g hg) (Q subgroups)
  · intro k hk'
    obtain ⟨s, hs⟩ := hl k hk'
    exact ⟨s, hs, by simp [hs]⟩
  all_goals
    dsimp only
    rw [List.map_map]
    refine List.map_congr_left fun k hk' => ?_
    simp only [Function.comp, List.map_map]
    refine List.map_congr_left fun l hl' => ?_
    obtain ⟨s, hs⟩ := hl k hk'
    obtain ⟨t, ht⟩ := hl l hl'
    simp [pairData, hs, ht]

/-- Ethanol and hexane in the original model. -/
def ethanolHexane : List Groups := [[(1, 1), (2, 1), (14, 1)], [(2, 4), (1, 2)]]

/-- The rows of the table for these groups. -/
noncomputable def someSubgroups : ℕ → Option Sub := fun k =>
  if k = 1 then some ⟨0.9011, 0.848, 1⟩ else if k = 2 then some ⟨0.6744, 0.54, 1⟩ else if k = 14 then some ⟨1, 1.2, 5⟩ else none

example : Known someSubgroups ethanolHexane ∧ (∀ g ∈ ethanolHexane, (g.map Prod.fst).Nodup) ∧ groupList ethanolHexane = [1, 2, 14] ∧
    groupMatrix ethanolHexane = [[1, 2], [1, 4], [1, 0]] := by
  have hl : groupList ethanolHexane = [1, 2, 14] := by decide +kernel
  refine ⟨?_, ?_, hl, ?_⟩
  · intro g hg e he
    simp only [ethanolHexane, List.mem_cons, List.not_mem_nil, or_false] at hg
    rcases hg with rfl | rfl <;> simp only [List.mem_cons, List.not_mem_nil, or_false] at he
    · rcases he with rfl | rfl | rfl <;> simp [someSubgroups]
    · rcases he with rfl | rfl <;> simp [someSubgroups]
  · simp [ethanolHexane]
  · simp [groupMatrix, hl]
    simp [ethanolHexane, count, List.lookup]

theorem groupList_congr {cs cs' : List Groups} (h : ∀ k, (∃ g ∈ cs, ∃ n, (k, n) ∈ g) ↔ ∃ g ∈ cs', ∃ n, (k, n) ∈ g) :
    groupList cs = groupList cs' := by
  have h1 := C135_group_list cs
  have h2 := C135_group_list cs'
  have hp : (groupList cs).Perm (groupList cs') :=
    (List.perm_ext_iff_of_nodup (h1.1.imp fun h => h.ne) (h2.1.imp fun h => h.ne)).2 fun k => by rw [h1.2, h2.2, h]
  exact hp.eq_of_pairwise (fun a b _ _ hab hba => absurd hab (lt_asymm hba)) h1.1 h2.1

theorem lookup_perm {g g' : Groups} (h : g.Perm g') (hn : (g.map Prod.fst).Nodup) (k : ℕ) : g.lookup k = g'.lookup k := by
  have key : ∀ g : Groups, (g.map Prod.fst).Nodup → ∀ n, g.lookup k = some n ↔ (k, n) ∈ g := by
    intro g hn n
    induction g with
    | nil => simp
    | cons e g ih =>
      obtain ⟨k', n'⟩ := e
      rw [List.map_cons, List.nodup_cons] at hn
      by_cases hk : k = k'
      · subst hk
        simp only [List.lookup, beq_self_eq_true, List.mem_cons, Prod.mk.injEq, true_and, Option.some.injEq]
        constructor
        · intro h; exact .inl h.symm
        · rintro (h | h)
          · exact h.symm
          · exact absurd (List.mem_map.2 ⟨_, h, rfl⟩) hn.1
      · rw [List.lookup, beq_false_of_ne hk, List.mem_cons]
        simp only [Prod.mk.injEq, hk, false_and, false_or]
        exact ih hn.2
  have hn' : (g'.map Prod.fst).Nodup := ((h.map _).nodup_iff).1 hn
  refine Option.ext fun n => ?_
  rw [key g hn n, key g' hn' n, h.mem_iff]

/-- The order in which the groups of a component are written does not matter: the same model is built. -/
theorem C135_order (version : ℕ) (subgroups : ℕ → Option Sub) (data : ℕ → ℕ → Option Unifac.Entry) {cs cs' : List Groups}
    (h : List.Forall₂ List.Perm cs cs') (hn : ∀ g ∈ cs, (g.map Prod.fst).Nodup) :
    fromSubgroups version subgroups data cs = fromSubgroups version subgroups data cs' := by
  have hs : ∀ (f : ℕ → Option ℝ) (g g' : Groups), g.Perm g' → sumOver f g = sumOver f g' := by
    intro f g g' hp
    induction hp with
    | nil => rfl
    | cons e _ ih => obtain ⟨k, n⟩ := e; rw [sumOver, sumOver, ih]
    | swap e e' g =>
      obtain ⟨k, n⟩ := e
      obtain ⟨k', n'⟩ := e'
      simp only [sumOver]
      cases f k <;> cases f k' <;> cases sumOver f g <;> simp [bind, pure]
      ring
    | trans _ _ ih1 ih2 => rw [ih1, ih2]
  have hm : ∀ f : ℕ → Option ℝ, cs.mapM (sumOver f) = cs'.mapM (sumOver f) := by
    intro f
    clear hn
    induction h with
    | nil => rfl
    | cons hp _ ih => rw [List.mapM_cons, List.mapM_cons, hs f _ _ hp, ih]
  have hl : groupList cs = groupList cs' := by
    refine groupList_congr fun k => ?_
    clear hn hm
    induction h with
    | nil => simp
    | cons hp _ ih => simp only [List.mem_cons, exists_eq_or_imp, hp.mem_iff, ih]
  have hv : groupMatrix cs = groupMatrix cs' := by
    unfold groupMatrix
    rw [hl]
    refine List.map_congr_left fun k hk => ?_
    clear hm hl hk
    induction h with
    | nil => rfl
    | cons hp _ ih =>
      rw [List.map_cons, List.map_cons, count, count, lookup_perm hp (hn _ List.mem_cons_self) k,
        ih fun g hg => hn g (List.mem_cons_of_mem _ hg)]
  unfold fromSubgroups
  rw [hm, hm, hl, hv]

example (version : ℕ) (data : ℕ → ℕ → Option Unifac.Entry) :
    fromSubgroups version someSubgroups data ethanolHexane =
      fromSubgroups version someSubgroups data [[(14, 1), (2, 1), (1, 1)], [(1, 2), (2, 4)]] := by
  refine C135_order version someSubgroups data ?_ (by simp [ethanolHexane])
  refine .cons ?_ (.cons ?_ .nil)
  · exact ((List.Perm.swap _ _ _).trans ((List.Perm.swap _ _ _).cons _)).trans (List.Perm.swap _ _ _) |>.trans (List.Perm.refl _)
  · exact List.Perm.swap _ _ _

/-- The order of the components is kept: permuting them permutes volumes, areas and the columns of counts, and leaves groups and interactions. -/
theorem C135_components (cs cs' : List Groups) (h : cs.Perm cs') : groupList cs = groupList cs' ∧
    ∀ k, (cs.map fun g => count g k).Perm (cs'.map fun g => count g k) := by
  refine ⟨groupList_congr fun k => ?_, fun k => h.map _⟩
  simp only [h.mem_iff]

/-! ## The constructor (5480-5570) -/

/-- The interaction arguments of the constructor: each given or not. -/
structure PsiArgs where
  coeffs : Option (List (List (ℝ × ℝ × ℝ)))
  abc : Option (List (List ℝ) × List (List ℝ) × List (List ℝ))
  a : Option (List (List ℝ))
  b : Option (List (List ℝ))
  c : Option (List (List ℝ))

/-- Which parameters are used (5501-5514); `none` is `ValueError`. -/
def choosePsi (p : PsiArgs) : Option (List (List ℝ) × List (List ℝ) × List (List ℝ)) :=
  let n := (if p.coeffs.isSome then 1 else 0) + (if p.abc.isSome then 1 else 0) + (if p.a.isSome || p.b.isSome || p.c.isSome then 1 else 0)
  if n ≠ 1 then none
  else
    match p.abc with
    | some t => some t
    | none =>
      match p.a, p.b, p.c with
      | some a, some b, some c => some (a, b, c)
      | _, _, _ => p.coeffs.map fun l => (l.map fun r => r.map fun e => e.1, l.map fun r => r.map fun e => e.2.1, l.map fun r => r.map fun e => e.2.2)

/-- Exactly one of the three ways to give the interactions is accepted, and the separate matrices only together. -/
theorem C135_psi (p : PsiArgs) (r : List (List ℝ) × List (List ℝ) × List (List ℝ)) : choosePsi p = some r ↔
    (p = ⟨none, some r, none, none, none⟩ ∨ p = ⟨none, none, some r.1, some r.2.1, some r.2.2⟩ ∨
      ∃ l, p = ⟨some l, none, none, none, none⟩ ∧ r.1 = l.map (List.map fun e => e.1) ∧ r.2.1 = l.map (List.map fun e => e.2.1) ∧
        r.2.2 = l.map (List.map fun e => e.2.2)) := by
  obtain ⟨r1, r2, r3⟩ := r
  rcases p with ⟨_ | l, _ | t, _ | a, _ | b, _ | c⟩ <;> simp [choosePsi, eq_comm]

/-- The group counts of a component and the lists of groups of components and components of groups (5534-5566). -/
noncomputable def cmpCount (vs : List (List ℝ)) (i : ℕ) : ℝ := (vs.map fun r => r.getD i 0).sum

/-- Reciprocals of the counts for lists (5541); `none` is `ZeroDivisionError`. -/
noncomputable def cmpCountInv (vs : List (List ℝ)) (N : ℕ) : Option (List ℝ) :=
  (List.range N).mapM fun i => if cmpCount vs i = 0 then none else some (1 / cmpCount vs i)

/-- `cmp_group_idx` (5548). -/
noncomputable def cmpGroups (vs : List (List ℝ)) (i : ℕ) : List ℕ := (List.range vs.length).filter fun j => (vs.getD j []).getD i 0 ≠ 0

/-- `group_cmp_idx` (5556-5563). -/
noncomputable def groupCmps (vs : List (List ℝ)) (N k : ℕ) : List ℕ := (List.range N).filter fun i => k ∈ cmpGroups vs i

/-- The two lists say the same: component and group belong together when the count is not zero. -/
theorem C135_indexes (vs : List (List ℝ)) (N i k : ℕ) (hi : i < N) (hk : k < vs.length) :
    (i ∈ groupCmps vs N k ↔ k ∈ cmpGroups vs i) ∧ (k ∈ cmpGroups vs i ↔ (vs.getD k []).getD i 0 ≠ 0) := by
  have h2 : k ∈ cmpGroups vs i ↔ (vs.getD k []).getD i 0 ≠ 0 := by simp [cmpGroups, hk]
  refine ⟨?_, h2⟩
  simp [groupCmps, hi]

example : (1 ∈ groupCmps [[1, 2], [1, 4], [1, 0]] 2 1) ∧ ¬ (1 ∈ groupCmps [[1, 2], [1, 4], [1, 0]] 2 2) := by
  constructor
  · rw [(C135_indexes _ 2 1 1 (by norm_num) (by norm_num)).1, (C135_indexes _ 2 1 1 (by norm_num) (by norm_num)).2]
    norm_num
  · rw [(C135_indexes _ 2 1 2 (by norm_num) (by norm_num)).1, (C135_indexes _ 2 1 2 (by norm_num) (by norm_num)).2]
    norm_num

/-- A component without groups, or whose counts sum to zero, makes the constructor raise; nothing else does here. -/
theorem C135_empty_component (vs : List (List ℝ)) (N : ℕ) : cmpCountInv vs N = none ↔ ∃ i < N, cmpCount vs i = 0 := by
  constructor
  · intro h
    by_contra hc
    push Not at hc
    rw [cmpCountInv, mapM_some (h := fun i => 1 / cmpCount vs i) fun i hi => if_neg (hc i (List.mem_range.1 hi))] at h
    cases h
  · rintro ⟨i, hi, h0⟩
    exact mapM_none (List.mem_range.2 hi) (if_pos h0)

/-- So a mixture with a component that has no groups is built by `from_subgroups` without complaint about it and rejected by the constructor. -/
example : (fromSubgroups 0 someSubgroups (fun _ _ => none) [[(1, 2)], []]).isSome = true ∧ cmpCountInv (groupMatrix [[(1, 2)], []]) 2 = none := by
  constructor
  · rw [C135_known]; simp [Known, someSubgroups]
  · rw [C135_empty_component]
    refine ⟨1, by norm_num, ?_⟩
    have hl : groupList [[(1, 2)], []] = [1] := by decide +kernel
    simp [cmpCount, groupMatrix, hl, count]

end Verif.UnifacObject
