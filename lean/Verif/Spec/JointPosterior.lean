import Verif.Spec.Posterior
import Verif.Spec.GridPosterior
import Verif.Model.TransitionCrosscat

/-!
# Specification vocabulary: the joint posterior of clusters and hyperparameters
-/

namespace Cgpm2.Spec
open Cgpm2.Views

/-- The hyperparameters of a column of a view, or of its cluster variable: those the first of its
objects reports. -/
noncomputable def hypersAt (view : View) (o : Var) : Option (Dict String ℝ) :=
  ((primsIn 2 view).filter fun p => decide (p.outputs = [o])).head?.map Prim.getHypers

/-- The grids of a column of a view; those of its cluster variable are under the key
`'row_divide'`. -/
noncomputable def gridsAt (grids : Dict (Option Var) (Dict String (List ℝ))) (view : View) (o : Var) :
    Option (Dict String (List ℝ)) :=
  Dict.get? grids (if o = ((cgpmI 2).outputs view).headD 0 then none else some o)

/-- The two objects are of one class, with as many categories. -/
def SameType : Prim → Prim → Prop
  | .categorical a, .categorical b => a.k = b.k
  | p, q => p.kind = q.kind

/-- There are legal grids for all hyperparameters of the columns and of the cluster variable. -/
def Gridded (grids : Dict (Option Var) (Dict String (List ℝ))) (view : View) : Prop :=
  ∀ p ∈ primsIn 2 view, ∀ o, p.outputs = [o] → p.kind ≠ .normalUC ∧ ∃ grid, gridsAt grids view o = some grid ∧
    Dict.keys grid = hyperNames p.kind ∧ ∀ n ∈ hyperNames p.kind, LegalGrid grid n

/-- `view'` has the columns, rows and cells of `view`; the rows may be in other clusters, and the
hyperparameters may be any points of the grids. -/
structure Variant (Z : List Var) (grids : Dict (Option Var) (Dict String (List ℝ))) (view view' : View) : Prop where
  tidy : Tidy Z 2 view'
  isView : IsView view'
  outputs : (cgpmI 2).outputs view' = (cgpmI 2).outputs view
  types : ∀ p ∈ primsIn 2 view, ∀ q ∈ primsIn 2 view', p.outputs = q.outputs → SameType p q
  rows : ∀ r, Mates view r r ↔ Mates view' r r
  cells : ∀ g r, ∀ o ∈ viewColumns view, heldCell (cgpmI 2) view' g r o = heldCell (cgpmI 2) view g r o
  shared : ∀ p ∈ primsIn 2 view', ∀ q ∈ primsIn 2 view', p.outputs = q.outputs → SameModel p q
  onGrid : ∀ q ∈ primsIn 2 view', ∀ o, q.outputs = [o] → ∀ grid, gridsAt grids view o = some grid →
    List.Forall₂ (fun kg kv => kv.1 = kg.1 ∧ kv.2 ∈ kg.2) grid q.getHypers

/-- The two views put the same rows together, and have the same hyperparameters. -/
def SameState (view view' : View) : Prop :=
  SamePartition view view' ∧ ∀ o, hypersAt view o = hypersAt view' o

/-- In how many ways the hyperparameters of a view are choices of points of the grids. -/
noncomputable def multiplicity (grids : Dict (Option Var) (Dict String (List ℝ))) (view : View) : Nat :=
  (((cgpmI 2).outputs view).map fun o =>
    gridCount ((gridsAt grids view o).getD []) ((hypersAt view o).getD [])).prod

/-- The CrossCats with the views, columns, rows and cells of `x`: in each view the rows may be in
other clusters, and the hyperparameters may be any points of the grids. -/
def Variants (Z : List Var) (grids : Dict (Option Var) (Dict String (List ℝ))) (x x' : Crosscat) : Prop :=
  List.Forall₂ (Variant Z grids) x.cgpms x'.cgpms

/-- The two CrossCats put the same rows together in each view, and have the same
hyperparameters. -/
def SameStates (x x' : Crosscat) : Prop := List.Forall₂ SameState x.cgpms x'.cgpms

/-- The weight of the state of a CrossCat: `exp` of its `logpdf_score`, the joint probability of the
clusters and the table given the hyperparameters; a point that a grid lists several times counts
as often. -/
noncomputable def stateWeight (grids : Dict (Option Var) (Dict String (List ℝ))) (x : Crosscat) : ENNReal :=
  (match Product.logpdfScore (cgpmI 2) x with
    | .ok (.fin y) => ENNReal.ofReal (Real.exp y)
    | _ => 0) * ((x.cgpms.map (multiplicity grids)).prod : Nat)

/-- The CrossCat can be sampled on the grids: its views are legally reachable, no value of a
Bernoulli or Poisson column is missing, and there are legal grids for all hyperparameters. -/
structure Samplable (Z : List Var) (grids : Dict (Option Var) (Dict String (List ℝ))) (x : Crosscat) : Prop where
  built : Product.init (cgpmI 2) x.cgpms = .ok x
  some : x.cgpms ≠ []
  tidy : ∀ view ∈ x.cgpms, Tidy Z 2 view
  views : IsCrosscat x
  columns : ∀ o ∈ columns x, o ∉ Z
  known : ∀ view ∈ x.cgpms, FullyKnown view
  gridded : ∀ view ∈ x.cgpms, Gridded grids view

/-- `states` has one CrossCat for each variant of `x`. -/
structure States (Z : List Var) (grids : Dict (Option Var) (Dict String (List ℝ))) (x : Crosscat)
    (states : List Crosscat) : Prop where
  each : ∀ u ∈ states, Variants Z grids x u
  once : states.Pairwise fun u w => ¬ SameStates u w
  all : ∀ u, Variants Z grids x u → ∃ w ∈ states, SameStates u w

end Cgpm2.Spec
