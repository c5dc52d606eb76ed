import Verif.Model.Printed
import Verif.Spec.Composite

/-!
# Specification vocabulary: what a printed CGPM is made of
-/

namespace Cgpm2.Spec

/-- A primitive other than a CRP that does not hold the row. -/
def PlainPrim (r : RowId) (p : Prim) : Prop := p.kind ≠ .crp ∧ Dict.has p.data r = false

/-- Such a primitive, or a product, of products to any depth, of such primitives. -/
def Plain (r : RowId) : (n : Nat) → Cgpm n → Prop
  | 0, p => PlainPrim r p
  | _ + 1, .prim p => PlainPrim r p
  | n + 1, .product p => ∀ c ∈ p.cgpms, Plain r n c
  | _ + 1, _ => False

end Cgpm2.Spec
