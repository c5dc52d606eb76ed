import Verif.Spec.Views

/-!
# Specification vocabulary: the integers drawn for new cluster variables
-/

namespace Cgpm2.Spec
open Cgpm2.Views

/-- The integer `rng.randint(2**32-1)` draws from the `n`-th random number. -/
noncomputable def drawnInt (g : Rng) (n : Nat) : Var := ⌊Int.fract (g n).u * (2 ^ 32 - 1)⌋

/-- None of the first `N` integers that can be drawn is a variable of the CrossCat. -/
def NoClash (N : Nat) (g : Rng) (x : Crosscat) : Prop := ∀ n < N, drawnInt g n ∉ (cgpmI 3).outputs (whole x)

/-- Every row with a value of one of the variables is in the list. -/
def Covers (rows : List RowId) (vars : List Var) (x : Crosscat) : Prop :=
  ∀ v ∈ vars, ∀ r g, heldCell (cgpmI 3) (whole x) g r v ≠ none → r ∈ rows

/-- The first `N` integers that can be drawn are different from each other and from the variables of the
CrossCat. -/
def NoClashAmong (N : Nat) (g : Rng) (x : Crosscat) : Prop :=
  (∀ n < N, drawnInt g n ∉ (cgpmI 3).outputs (whole x)) ∧ ∀ n < N, ∀ m < n, drawnInt g m ≠ drawnInt g n

end Cgpm2.Spec
