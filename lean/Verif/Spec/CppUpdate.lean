import Verif.Spec.Crosscat
import Verif.Spec.Walks
import Verif.Model.CppUpdate

/-!
# Specification vocabulary: partitions of columns and rows
-/

namespace Cgpm2.Spec
open Cgpm2.Views

/-- `p` is one of the primitives that hold the column. -/
def OfColumn (x : Crosscat) (o : Var) (p : Prim) : Prop := p ∈ primsIn 3 (whole x) ∧ p.outputs = [o]

/-- Every row that a column or a cluster variable has a value in is one of `R`. -/
def RowsAmong (R : RowId → Prop) (x : Crosscat) : Prop :=
  ∀ g r v, heldCell (cgpmI 3) (whole x) g r v ≠ none → R r

/-- The number of categories of a Categorical. -/
def categories : Prim → Option Nat
  | .categorical c => some c.k
  | _ => none

/-- The primitives of each column have the same class and number of categories. -/
def SameTypes (x x' : Crosscat) : Prop :=
  ∀ o ∈ columns x, ∀ p p', OfColumn x o p → OfColumn x' o p' → p'.kind = p.kind ∧ categories p' = categories p

/-- The elements of a list, each once, in some order. -/
def Enumerates (unique : List Int → List Int) : Prop :=
  ∀ l, (unique l).Nodup ∧ ∀ i, i ∈ unique l ↔ i ∈ l

/-- The two rows are in one cluster of the view. -/
def SameCluster (view : View) (r r' : RowId) : Prop :=
  ∀ g, heldCell (cgpmI 2) view g r (((cgpmI 2).outputs view).headD 0) =
    heldCell (cgpmI 2) view g r' (((cgpmI 2).outputs view).headD 0)

/-- `rows` lists the rows that have a value, in increasing order. -/
def RowsInOrder (x : Crosscat) (rows : List Int) : Prop :=
  rows.Pairwise (· < ·) ∧ ∀ r, HasValue x (columns x) r ↔ ∃ k ∈ rows, r = some k

/-- Partitions of so many columns and rows: a number for each column, a partition and the state of a
view for each of the different numbers, and in each partition a number for each row. -/
structure Partitions (columns rows : Nat) (assignments : List Int) (viewStates : Nat)
    (xd : List (List Int)) : Prop where
  columns : assignments.length = columns
  views : assignments.dedup.length = xd.length
  states : viewStates = xd.length
  rows : ∀ part ∈ xd, part.length = rows

/-- The metadata of an answer are of the CrossCat: a name for each column, and the type of the
primitives of the column, Normal or Categorical. -/
structure Describes (x : Crosscat) (a : Views.Answer) : Prop where
  names : a.names = (columns x).length
  types : ∀ (i : Nat) o p, (Spec.columns x)[i]? = some o → OfColumn x o p →
    (p.kind = .normal ∧ a.modeltypes[i]? = some .normal) ∨
    (p.kind = .categorical ∧ a.modeltypes[i]? = some .categorical)

end Cgpm2.Spec
