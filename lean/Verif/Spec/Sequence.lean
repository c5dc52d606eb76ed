import Verif.Model.Prim

/-!
# Specification vocabulary: observing a list of rows one after the other
-/

namespace Cgpm2.Spec

/-- The object after observing the rows in order. -/
noncomputable def observeAll (o : Var) : Prim → List (RowId × ℚ) → Prim
  | p, [] => p
  | p, (r, q) :: rows => observeAll o (p.observe r [(o, .num q)] []).2 rows

/-- Every row is accepted when its turn comes. -/
def AllAccepted (o : Var) : Prim → List (RowId × ℚ) → Prop
  | _, [] => True
  | p, (r, q) :: rows => (p.observe r [(o, .num q)] []).1 = .ok () ∧
      AllAccepted o (p.observe r [(o, .num q)] []).2 rows

/-- What `logpdf` says about each row just before that row is observed. -/
noncomputable def logpdfsInTurn (o : Var) : Prim → List (RowId × ℚ) → List (Except Err Fl)
  | _, [] => []
  | p, (r, q) :: rows => p.logpdf r [(o, .num q)] [] [] ::
      logpdfsInTurn o (p.observe r [(o, .num q)] []).2 rows

end Cgpm2.Spec
