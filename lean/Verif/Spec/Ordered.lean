import Verif.Spec.Composite

/-!
# Specification vocabulary: calls that differ only in the order of dictionary entries
-/

namespace Cgpm2.Spec

/-- The two dicts have the same entries, possibly listed in a different order. -/
def SameDict {K V : Type} (d d' : Dict K V) : Prop :=
  (Dict.keys d).Nodup ∧ d.Perm d'

/-- The two calls have the same arguments, up to the order of entries in dicts. -/
inductive SameAsk : Ask → Ask → Prop
  | observe (r : RowId) {o o' i i' : Dict Var Val} (ho : SameDict o o') (hi : SameDict i i') :
      SameAsk (.observe r o i) (.observe r o' i')
  | logpdf (r : RowId) {t t' c c' i i' : Dict Var Val} (ht : SameDict t t') (hc : SameDict c c')
      (hi : SameDict i i') : SameAsk (.logpdf r t c i) (.logpdf r t' c' i')
  | simulate (r : RowId) (t : List Var) (N : Option Nat) {c c' i i' : Dict Var Val}
      (hc : SameDict c c') (hi : SameDict i i') :
      SameAsk (.simulate r t c i N) (.simulate r t c' i' N)
  | same (a : Ask) : SameAsk a a

end Cgpm2.Spec
