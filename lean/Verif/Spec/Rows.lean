import Verif.Model.TransitionRows
import Verif.Spec.Samples

/-!
# Specification vocabulary: moving one row of a mixture to another cluster
-/

namespace Cgpm2.Spec

/-- The model after `unobserve(rowid)`. -/
noncomputable def without {n : Nat} (c : Cgpm n) (r : RowId) (g : Rng) : Cgpm n :=
  ((cgpmI n).unobserve r (c, g)).2.1

/-- `c'` is the mixture `c` (with cluster variable `z`) in which row `r` may sit in another
cluster, and nothing else differs: every other row has the same cells (also the same cluster),
row `r` has the same cells apart from its cluster, and after taking `r` out, every sequence of
calls is answered in the same way by both (so hyperparameters and everything learned from the
other rows is the same).  `Z` lists the cluster variables; where a row had no cluster in some
inner mixture it may get one. -/
structure Moved {n : Nat} (Z : List Var) (z : Var) (r : RowId) (c c' : Cgpm n) : Prop where
  others : ∀ g r' v, r' ≠ r → heldCell (cgpmI n) c' g r' v = heldCell (cgpmI n) c g r' v
  cells : ∀ g v x, v ≠ z → heldCell (cgpmI n) c g r v = some x → heldCell (cgpmI n) c' g r v = some x
  no_more : ∀ g v, v ∉ Z → heldCell (cgpmI n) c g r v = none → heldCell (cgpmI n) c' g r v = none
  rest : ∀ as g g', answers (cgpmI n) as (without c' r g, g') = answers (cgpmI n) as (without c r g, g')

end Cgpm2.Spec
