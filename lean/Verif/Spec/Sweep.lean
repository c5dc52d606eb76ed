import Verif.Spec.CppUpdate

/-!
# Specification vocabulary: CrossCats on which inference can run
-/

namespace Cgpm2.Spec
open Cgpm2.Views

/-- No value of a Bernoulli or Poisson column is missing, and no row has the id None. -/
structure Ready (x : Crosscat) : Prop where
  missing : ∀ o ∈ columns x, ∀ p, OfColumn x o p → p.kind = .bernoulli ∨ p.kind = .poisson →
    ∀ g r, heldCell (cgpmI 3) (whole x) g r o ≠ some .nan
  anonymous : ∀ g v, heldCell (cgpmI 3) (whole x) g none v = none

end Cgpm2.Spec
