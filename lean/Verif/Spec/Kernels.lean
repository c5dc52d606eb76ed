import Verif.Spec.Sweep
import Verif.Spec.Draws
import Verif.Spec.Hypers
import Verif.Spec.Crosscat

/-!
# Specification vocabulary: calls of the methods of a GibbsCrossCat
-/

namespace Cgpm2.Spec
open Cgpm2.Views

/-- No column is a NormalUC. -/
def Collapsed (x : Crosscat) : Prop := ∀ o ∈ columns x, ∀ p, OfColumn x o p → p.kind ≠ .normalUC

/-- There are grids for the hyperparameters of each column, and of the CRPs. -/
structure HasGrids (s : Gibbs) : Prop where
  columns : ∀ o ∈ columns s.crosscat, ∀ p, OfColumn s.crosscat o p → ∃ grids,
    Dict.get? s.grids (some o) = some grids ∧ ∀ n ∈ hyperNames p.kind, LegalGrid grids n
  crp : ∃ grids, Dict.get? s.grids none = some grids ∧ ∀ n ∈ hyperNames .crp, LegalGrid grids n

/-- The kernels that move columns between views are not asked for. -/
def Step.Stays : Step → Prop
  | .viewAssignments _ => False
  | .setView _ _ => False
  | .transition _ _ kernels _ _ => ∃ l, kernels = some l ∧ "view_assignments" ∉ l
  | _ => True

/-- Calls of `transition` for a number of sweeps, of the kernels, of `set_view_assignment` and of the
methods that make the grids, for columns among `cols`. -/
def Step.Ordinary (cols : List Var) : Step → Prop
  | .transition N S kernels outputs _ => (∀ n, N = some n → 1 ≤ n) ∧ S = none ∧
      (∀ k ∈ kernels.getD [], k ∈ ["hypers_distributions", "hypers_row_divide", "hypers_column_divide",
        "row_assignments", "view_assignments"]) ∧ ∀ o ∈ outputs.getD [], o ∈ cols
  | .hypersDistributions outputs => ∀ o ∈ outputs.getD [], o ∈ cols
  | .hypersRowDivide outputs => ∀ o ∈ outputs.getD [], o ∈ cols
  | .hypersColumnDivide => True
  | .rowAssignments outputs _ => ∀ o ∈ outputs.getD [], o ∈ cols
  | .viewAssignments outputs => ∀ o ∈ outputs.getD [], o ∈ cols
  | .gridsDistribution outputs => ∀ o ∈ outputs.getD [], o ∈ cols
  | .gridsRowDivide => True
  | .setView output0 output1 => output0 ∈ cols ∧ ∀ o, output1 = some o → o ∈ cols
  | _ => False

/-- How many random numbers a kernel needs at most, for so many columns and rows; `outputs` are the
columns it is called for. -/
def kernelDraws (cols rows : Nat) (outputs : Option (List Var)) : Nat :=
  ((if outputs.getD [] = [] then cols else (outputs.getD []).length) + 8) * ((cols + 2) * (rows + 1))

/-- How many random numbers a call needs at most. -/
def Step.draws (cols rows : Nat) : Step → Nat
  | .transition N _ kernels outputs _ =>
      (N.getD 1).toNat * (kernels.elim 5 List.length * kernelDraws cols rows outputs)
  | .viewAssignments outputs => kernelDraws cols rows outputs
  | .setView _ _ => rows + 1
  | _ => 8 * ((cols + 2) * (rows + 1))

end Cgpm2.Spec
