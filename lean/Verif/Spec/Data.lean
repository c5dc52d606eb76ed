import Mathlib.Data.Real.Basic
import Verif.Py.Base

/-!
# Specification vocabulary: what the data held by a primitive is

Nothing here depends on the model of the repository.
-/

namespace Cgpm2.Spec

/-- The values that are not missing. -/
def present (l : List Val) : List ℚ :=
  l.filterMap fun v => match v with | .nan => none | .num q => some q

/-- The values held, in row order, ignoring the row ids. -/
def valuesOf (d : Dict RowId Val) : List Val := d.map Prod.snd

end Cgpm2.Spec
