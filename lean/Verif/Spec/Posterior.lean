import Verif.Spec.CppUpdate
import Verif.Spec.Primitive
import Verif.Spec.History
import Mathlib.Data.ENNReal.Basic
import Mathlib.Analysis.SpecialFunctions.Exp

/-!
# Specification vocabulary: views that hold the same table
-/

namespace Cgpm2.Spec
open Cgpm2.Views

/-- The two rows are held by the view, in one cluster. -/
def Mates (view : View) (r r' : RowId) : Prop :=
  ∃ k, ∀ g, heldCell (cgpmI 2) view g r (((cgpmI 2).outputs view).headD 0) = some k ∧
    heldCell (cgpmI 2) view g r' (((cgpmI 2).outputs view).headD 0) = some k

/-- The two views hold the same rows, and put the same rows together.  The labels of the clusters
may differ. -/
def SamePartition (view view' : View) : Prop := ∀ r r', Mates view r r' ↔ Mates view' r r'

/-- The two views hold the same rows, and put the same rows other than `r` together. -/
def SameApart (r : RowId) (view view' : View) : Prop :=
  (∀ a, Mates view a a ↔ Mates view' a a) ∧
    ∀ a b, a ≠ r → b ≠ r → (Mates view a b ↔ Mates view' a b)

/-- The two views have the same cluster variable and the same columns, perhaps in different orders,
with the same hyperparameters in all clusters of both, and the same cells. -/
structure SameContents (view view' : View) : Prop where
  cluster : ((cgpmI 2).outputs view').headD 0 = ((cgpmI 2).outputs view).headD 0
  columns : (viewColumns view').Perm (viewColumns view)
  hypers : ∀ p ∈ primsIn 2 view, ∀ q ∈ primsIn 2 view', p.outputs = q.outputs → SameModel p q
  cells : ∀ g r, ∀ o ∈ viewColumns view, heldCell (cgpmI 2) view' g r o = heldCell (cgpmI 2) view g r o

/-- No value of a Bernoulli or Poisson column is missing, and no row has the id None. -/
structure FullyKnown (view : View) : Prop where
  missing : ∀ p ∈ primsIn 2 view, p.kind = .bernoulli ∨ p.kind = .poisson → ∀ o ∈ p.outputs,
    ∀ g r, heldCell (cgpmI 2) view g r o ≠ some .nan
  anonymous : ∀ g v, heldCell (cgpmI 2) view g none v = none

/-- `view'` has the columns, hyperparameters, rows and cells of `view`; the rows may be in other
clusters. -/
structure Rearranged (Z : List Var) (view view' : View) : Prop where
  tidy : Tidy Z 2 view'
  isView : IsView view'
  contents : SameContents view view'
  rows : ∀ r, Mates view r r ↔ Mates view' r r

/-- `views` has one view for each way to put the rows of `view` into clusters. -/
structure Clusterings (Z : List Var) (view : View) (views : List View) : Prop where
  each : ∀ u ∈ views, Rearranged Z view u
  once : views.Pairwise fun u w => ¬ SamePartition u w
  all : ∀ u, Rearranged Z view u → ∃ w ∈ views, SamePartition u w

/-- `exp` of the score: the joint probability of the partition and the table. -/
noncomputable def joint (view : View) : ENNReal :=
  match (cgpmI 2).logpdfScore view with
  | .ok (.fin y) => ENNReal.ofReal (Real.exp y)
  | _ => 0

/-- The call, `n` times in a row; the first exception ends it. -/
def repeatCall {S : Type} (m : Py S Unit) : Nat → Py S Unit
  | 0 => pure ()
  | n + 1 => do
    m
    repeatCall m n

end Cgpm2.Spec
