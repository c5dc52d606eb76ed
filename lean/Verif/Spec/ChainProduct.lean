import Verif.Spec.Chain
import Verif.Spec.Density

/-!
# Queries that a member of a chain answers by conditioning
-/

namespace Cgpm2.Spec

/-- The member has no variable among the targets, or none among the constraints. -/
def OneSided (b : Member) (t c : Dict Var Val) : Prop :=
  (∀ v ∈ memberI.outputs b, v ∉ Dict.keys t) ∨ ∀ v ∈ memberI.outputs b, v ∉ Dict.keys c

/-- The member is a primitive, product or mixture (tidy ones have no inputs) without data for the row
that is asked about distinct variables with values of their types. -/
def Conditions (r : RowId) (t c : Dict Var Val) : Member → Prop
  | .tower n s => (∃ Z, Tidy Z n s) ∧ HoldsNothing (cgpmI n) s r ∧
      Query n s (only ((cgpmI n).outputs s) t) (only ((cgpmI n).outputs s) c)
  | .linreg _ => False
  | .forest _ => False

end Cgpm2.Spec
