import Verif.Spec.Table
import Verif.Model.TransitionViews

/-!
# Specification vocabulary: views of a CrossCat
-/

namespace Cgpm2.Spec
open Cgpm2.Views

/-- A view: a FlexibleRowMixture over a CRP, of Products of primitives. -/
def IsView (view : View) : Prop :=
  ∃ (m : FlexMix (Cgpm 1)) (p : Product (Cgpm 0)), view = (.flexMix m : Node (Cgpm 1)) ∧
    m.rowDivide.kind = .crp ∧ m.array.base = (.product p : Node (Cgpm 0))

/-- A CrossCat: a Product of views. -/
def IsCrosscat (x : Crosscat) : Prop := ∀ view ∈ x.cgpms, IsView view

/-- The columns of a view: its outputs without the cluster variable. -/
noncomputable def viewColumns (view : View) : List Var := ((cgpmI 2).outputs view).tail

/-- The columns of a CrossCat. -/
noncomputable def columns (x : Crosscat) : List Var := x.cgpms.flatMap viewColumns

/-- The two columns are in one view. -/
def Together (x : Crosscat) (a b : Var) : Prop :=
  ∃ view ∈ x.cgpms, a ∈ viewColumns view ∧ b ∈ viewColumns view

/-- The view holds something in the row. -/
def HasRow (view : View) (r : RowId) : Prop := ¬ HoldsNothing (cgpmI 2) view r

/-- Every view has the rows `R`. -/
def Aligned (x : Crosscat) (R : RowId → Prop) : Prop := ∀ view ∈ x.cgpms, ∀ r, HasRow view r ↔ R r

/-- The row has a value in one of the columns. -/
def HasValue (x : Crosscat) (outs : List Var) (r : RowId) : Prop :=
  ∀ g, ∃ o ∈ outs, heldCell (cgpmI 3) (whole x) g r o ≠ none

/-- `x'` is a CrossCat with the data of `x`: the same columns, with the same cells.  No view is
without columns.  Its cluster variables are those of `x`, except for `new`, and rows keep their
clusters. -/
structure SameData (x x' : Crosscat) (new : List Var) : Prop where
  crosscat : IsCrosscat x'
  cols : (columns x').Perm (columns x)
  nonempty : ∀ view ∈ x'.cgpms, viewColumns view ≠ []
  cells : ∀ g r, ∀ v ∈ columns x,
    heldCell (cgpmI 3) (whole x') g r v = heldCell (cgpmI 3) (whole x) g r v
  clusters : ∀ v ∈ (cgpmI 3).outputs (whole x'), v ∉ new → v ∈ (cgpmI 3).outputs (whole x) ∧
    ∀ g r k, heldCell (cgpmI 3) (whole x) g r v = some k → heldCell (cgpmI 3) (whole x') g r v = some k

/-- The cluster variables of `x'` other than `new` have exactly the cells they had in `x`. -/
def SameClusters (x x' : Crosscat) (new : List Var) : Prop :=
  ∀ v ∈ (cgpmI 3).outputs (whole x'), v ∉ new → ∀ g r,
    heldCell (cgpmI 3) (whole x') g r v = heldCell (cgpmI 3) (whole x) g r v

/-- The columns `outs` are alone in a view of `x'` with the cluster variable `z`; its rows are those
with a value in one of the columns. -/
def AloneIn (x x' : Crosscat) (outs : List Var) (z : Var) : Prop :=
  ∃ view ∈ x'.cgpms, (cgpmI 2).outputs view = z :: outs ∧ ∀ r, HasRow view r ↔ HasValue x outs r

end Cgpm2.Spec
