import Verif.Spec.Life
import Verif.Spec.Samples

/-!
# Specification vocabulary: questions to an ensemble
-/

namespace Cgpm2.Spec
open Cgpm2.Ensemble

/-- A value for the column that has a density: one of the type of the column, and not missing if the
column is a Bernoulli or a Poisson. -/
def Sensible (outputs : List Var) (types : List Dist) (v : Var) (y : Val) : Prop :=
  v ∈ outputs ∧ ∀ d, (v, d) ∈ outputs.zip types →
    ValueOf d y ∧ (y = .nan → d.name ≠ "bernoulli" ∧ d.name ≠ "poisson")

end Cgpm2.Spec
