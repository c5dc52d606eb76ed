import Verif.Py.Base

/-!
# Specification vocabulary: the order of rows
-/

namespace Cgpm2.Spec

/-- Row ids in increasing order; None comes before all numbers in Python 2. -/
def Before : RowId → RowId → Prop
  | none, none => False
  | none, some _ => True
  | some _, none => False
  | some a, some b => a < b

end Cgpm2.Spec
