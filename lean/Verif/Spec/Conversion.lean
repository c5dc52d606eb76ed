import Verif.Model.Conversion
import Verif.Spec.Life
import Verif.Spec.Posterior

/-!
# Specification vocabulary: converting a state of cgpm
-/

namespace Cgpm2.Spec
open Cgpm2.Views Cgpm2.Ensemble Cgpm2.Conversion

/-- The statistical type of a dimension. -/
def Dim.type (d : Dim) : Dist := ⟨d.cctype, d.k⟩

/-- A dimension of data of a class the conversion knows, with one output.  A Categorical has at least
one category, and hyperparameters other than a location are positive. -/
structure DataDim (d : Dim) : Prop where
  type : d.cctype = "normal" ∨ d.cctype = "poisson" ∨ (d.cctype = "categorical" ∧ ∃ k, d.k = some k ∧ 1 ≤ k)
  one : ∃ o, d.outputs = [o]
  positive : ∀ n x, Dict.get? d.hypers n = some x → n ≠ "m" → 0 < x

/-- The clustering of the rows of a view. -/
structure RowsDim (d : Dim) : Prop where
  type : d.cctype = "crp"
  one : ∃ o, d.outputs = [o]
  positive : ∀ x, Dict.get? d.hypers "alpha" = some x → 0 < x

/-- The value of the column `c` in the row `r`. -/
def SourceView.cell (v : SourceView) (r : RowId) (c : Var) : Option Val :=
  (Dict.get? v.X c).bind fun column => Dict.get? column r

/-- The variables of a view: the one of the clustering first. -/
def SourceView.vars (v : SourceView) : List Var := v.crp.outputs ++ v.dims.flatMap Dim.outputs

/-- A view with at least one column, in which every row has a cluster, and a value of its type in every
column. -/
structure SoundView (v : SourceView) : Prop where
  rowsDim : RowsDim v.crp
  some : v.dims ≠ []
  dims : ∀ d ∈ v.dims, DataDim d
  rows : (Dict.keys v.Zr).Nodup
  cells : ∀ r ∈ Dict.keys v.Zr, ∀ d ∈ v.dims, ∀ c ∈ d.outputs, ∃ x, SourceView.cell v r c = Option.some x ∧
    ValueOf (Dim.type d) x

/-- At least one view, and all variables are different. -/
structure SoundState (s : List SourceView) : Prop where
  some : s ≠ []
  views : ∀ v ∈ s, SoundView v
  apart : (s.flatMap SourceView.vars).Nodup

/-- The value a hyperparameter has in a dimension; left out it is 0 for a location and else 1. -/
noncomputable def Dim.hyper (d : Dim) (name : String) : ℝ :=
  (Dict.get? d.hypers name).getD (if name = "m" then 0 else 1)

/-- The primitive is of the dimension: it has its variable, its type, and its hyperparameters. -/
def OfDim (d : Dim) (p : Prim) : Prop :=
  p.outputs = d.outputs ∧ OfType (Dim.type d) p ∧
    p.getHypers = (hyperNames p.kind).map fun n => (n, Dim.hyper d n)

/-- The view says what the source says: the same variables in the same order, the same cells, no other
rows, the same rows together, and every primitive inside is of one of the dimensions. -/
structure Says (s : SourceView) (v : View) : Prop where
  vars : (cgpmI 2).outputs v = SourceView.vars s
  cells : ∀ g r, ∀ c ∈ viewColumns v, heldCell (cgpmI 2) v g r c =
    if r ∈ Dict.keys s.Zr then SourceView.cell s r c else none
  together : ∀ r r', Mates v r r' ↔ ∃ t, Dict.get? s.Zr r = some t ∧ Dict.get? s.Zr r' = some t
  prims : ∀ p ∈ primsIn 2 v, ∃ d ∈ s.crp :: s.dims, OfDim d p

/-- The tree of a dimension: its class, the number of categories of a Categorical, and all
hyperparameters of the class. -/
noncomputable def Dim.ast (d : Dim) : Ast :=
  let hypers (names : List String) : Dict String ℝ := names.map fun n => (n, Dim.hyper d n)
  if d.cctype = "categorical" then .dist "categorical" d.k (hypers ["alpha"])
  else if d.cctype = "crp" then .dist "crp" none (hypers ["alpha"])
  else if d.cctype = "normal" then .dist "normal" none (hypers ["m", "r", "s", "nu"])
  else .dist "poisson" none (hypers ["a", "b"])

/-- The tree of a state: for each view the clustering and the list of columns. -/
noncomputable def stateAst (s : List SourceView) : Ast :=
  .list (s.map fun v => .mixture (Dim.ast v.crp) (.list (v.dims.map Dim.ast)))

end Cgpm2.Spec
