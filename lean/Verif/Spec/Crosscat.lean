import Verif.Spec.Views
import Verif.Model.CppTransition

/-!
# Specification vocabulary: sequences of inference steps on a CrossCat
-/

namespace Cgpm2.Spec
open Cgpm2.Views

/-- The calls of methods of a GibbsCrossCat.  The last three use the C++ engine, whose answers are in
`env`. -/
inductive Step
  | transition (N : Option Int) (S : Option ℝ) (kernels : Option (List String))
      (outputs : Option (List Var)) (rowids : Option (List RowId))
  | hypersDistributions (outputs : Option (List Var))
  | hypersRowDivide (outputs : Option (List Var))
  | hypersColumnDivide
  | rowAssignments (outputs : Option (List Var)) (rowids : Option (List RowId))
  | viewAssignments (outputs : Option (List Var))
  | gridsDistribution (outputs : Option (List Var))
  | gridsRowDivide
  | setHypersDistribution (output : Var) (hypers : Dict String ℝ)
  | setHypersRowDivide (output : Var) (hypers : Dict String ℝ)
  | setRowid (outputs : Option (List Var)) (identical : Bool) (rowid0 rowid1 : RowId)
  | setView (output0 : Var) (output1 : Option Var)
  | rowAssignmentsCpp (env : Surroundings) (con : Constraints) (N S : Option Int)
      (rowids : Option (List RowId))
  | viewAssignmentsCpp (env : Surroundings) (con : Constraints) (N S : Option Int)
      (outputs : Option (List Var))
  | structureCpp (env : Surroundings) (con : Constraints) (N S : Option Int)
      (outputs : Option (List Var))

/-- The call from the world `w` ends with the outcome `r`. -/
def Step.Ends (ord : Orders) (s : Step) (w : Progress.World (Gibbs × Rng))
    (r : Except Err Unit × Progress.World (Gibbs × Rng)) : Prop :=
  match s with
  | .transition N S kernels outputs rowids => Gibbs.Transition ord N S kernels outputs rowids w r
  | .hypersDistributions outputs => Progress.World.call (Gibbs.transitionHypersDistributions ord outputs) w = r
  | .hypersRowDivide outputs => Progress.World.call (Gibbs.transitionHypersRowDivide ord outputs) w = r
  | .hypersColumnDivide => Progress.World.call Gibbs.transitionHypersColumnDivide w = r
  | .rowAssignments outputs rowids =>
      Progress.World.call (Gibbs.transitionRowAssignments ord outputs rowids) w = r
  | .viewAssignments outputs => Progress.World.call (Gibbs.transitionViews outputs) w = r
  | .gridsDistribution outputs => Progress.World.call (Gibbs.gridsDistribution ord outputs) w = r
  | .gridsRowDivide => Progress.World.call Gibbs.gridsRowDivide w = r
  | .setHypersDistribution output hypers =>
      Progress.World.call (Gibbs.setHypersDistribution output hypers) w = r
  | .setHypersRowDivide output hypers =>
      Progress.World.call (Gibbs.setHypersRowDivide ord output hypers) w = r
  | .setRowid outputs identical rowid0 rowid1 =>
      Progress.World.call (Gibbs.setRowid ord outputs identical rowid0 rowid1) w = r
  | .setView output0 output1 => Progress.World.call (Gibbs.setView output0 output1) w = r
  | .rowAssignmentsCpp env con N S rowids =>
      Progress.World.call (Gibbs.transitionRowAssignmentsCpp ord env con N S rowids) w = r
  | .viewAssignmentsCpp env con N S outputs =>
      Progress.World.call (Gibbs.transitionViewAssignmentsCpp ord env con N S outputs) w = r
  | .structureCpp env con N S outputs =>
      Progress.World.call (Gibbs.transitionStructureCpp ord env con N S outputs) w = r

/-- The columns a call is asked to move are among `cols`. -/
def Step.Moves (cols : List Var) : Step → Prop
  | .transition _ _ _ outputs _ => ∀ o ∈ outputs.getD [], o ∈ cols
  | .viewAssignments outputs => ∀ o ∈ outputs.getD [], o ∈ cols
  | .setView output0 output1 => output0 ∈ cols ∧ ∀ o, output1 = some o → o ∈ cols
  | _ => True

/-- The calls are made one after the other, and each returns. -/
inductive Returns (ord : Orders) : List Step → Progress.World (Gibbs × Rng) →
    Progress.World (Gibbs × Rng) → Prop
  | nil (w) : Returns ord [] w w
  | cons {s l w w1 w2} (h : Step.Ends ord s w (.ok (), w1)) (t : Returns ord l w1 w2) :
      Returns ord (s :: l) w w2

/-- `x'` is a CrossCat with the table of `x`: the same columns, with the same cells.  Each view is a
row mixture over a CRP with at least one column, and no variable is in two of them. -/
structure SameTable (x x' : Crosscat) : Prop where
  crosscat : IsCrosscat x'
  cols : (columns x').Perm (columns x)
  nonempty : ∀ view ∈ x'.cgpms, viewColumns view ≠ []
  apart : ((cgpmI 3).outputs (whole x')).Nodup
  cells : ∀ g r, ∀ v ∈ columns x,
    heldCell (cgpmI 3) (whole x') g r v = heldCell (cgpmI 3) (whole x) g r v

/-- The table with the rows `R` has no missing cells. -/
def Complete (x : Crosscat) (R : RowId → Prop) : Prop :=
  ∀ o ∈ columns x, ∀ r, R r → ∀ g, heldCell (cgpmI 3) (whole x) g r o ≠ none

end Cgpm2.Spec
