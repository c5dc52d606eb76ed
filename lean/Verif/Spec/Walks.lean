import Verif.Model.Walks

/-!
# Specification vocabulary: the primitives inside a CGPM
-/

namespace Cgpm2.Spec

/-- Every primitive inside a CGPM: the components of products, the row divider of a mixture, and
the components of its array, for flexible arrays followed by the base. -/
def primsIn : (n : Nat) → Cgpm n → List Prim
  | 0, p => [p]
  | _ + 1, .prim p => [p]
  | n + 1, .product p => p.cgpms.flatMap (primsIn n)
  | n + 1, .finArray a => a.cgpms.flatMap (primsIn n)
  | n + 1, .flexArray a => (Dict.values a.cgpms).flatMap (primsIn n) ++ primsIn n a.base
  | n + 1, .finMix m => m.rowDivide :: m.array.cgpms.flatMap (primsIn n)
  | n + 1, .flexMix m =>
    m.rowDivide :: ((Dict.values m.array.cgpms).flatMap (primsIn n) ++ primsIn n m.array.base)

/-- The list `ps` after the primitives whose only output is `o` have been replaced, in order, by
those of `l`. -/
def fill (o : Var) : List Prim → List Prim → List Prim
  | _, [] => []
  | l, p :: ps => if p.outputs = [o] then l.headD p :: fill o l.tail ps else p :: fill o l ps

end Cgpm2.Spec
