import Verif.Model.Crp

/-!
# Specification vocabulary: replaying cluster assignments on a CRP
-/

namespace Cgpm2.Spec

/-- Observe each row at its table, in the order of the list. -/
def seat (o : Var) : List (RowId × Int) → Py Crp Unit
  | [] => pure ()
  | (rowid, table) :: rest => do
    Crp.observe rowid [(o, .num (table : ℚ))] []
    seat o rest

/-- The numbers of the list are `0, …, n-1` for some `n`, each at least once. -/
def NoGaps (l : List Int) : Prop := ∀ k ∈ l, 0 ≤ k ∧ ∀ m, 0 ≤ m → m < k → m ∈ l

end Cgpm2.Spec
