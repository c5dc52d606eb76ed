import Verif.Spec.Views
import Verif.Spec.Walks
import Verif.Spec.Primitive
import Verif.Spec.Chance

/-!
# Moves of a column between views (specification)
-/

namespace Cgpm2.Spec
open Views

/-- The primitives of a column in one view have the same hyperparameters. -/
def SharedHypers (x : Crosscat) : Prop :=
  ∀ v ∈ x.cgpms, ∀ p ∈ primsIn 2 v, ∀ q ∈ primsIn 2 v, p.outputs = q.outputs → SameModel p q

/-- `X i` is `x` with the column `o` in the view at position `i`, and `s i` is its score. -/
structure MovedTo (x : Crosscat) (o : Var) (k : Nat) (X : Nat → Crosscat) (s : Nat → ℝ) : Prop where
  stay : X k = x
  moved : ∀ i v, x.cgpms[i]? = some v → i ≠ k → ∃ w ∈ (X i).cgpms, viewColumns w = viewColumns v ++ [o]
  score : ∀ i < x.cgpms.length, (cgpmI 3).logpdfScore (whole (X i)) = .ok (.fin (s i))

end Cgpm2.Spec
