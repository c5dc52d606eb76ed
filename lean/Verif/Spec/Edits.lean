import Verif.Model.Walks

/-!
# Specification vocabulary: editing the columns of a CGPM
-/

namespace Cgpm2.Spec

/-- The column `o` can be taken out: the model is a product, or a flexible mixture (of flexible
mixtures …) of products, that has another block besides the one of `o`; `o` is not a cluster
variable of these mixtures. -/
def Removable : (n : Nat) → Cgpm n → Var → Prop
  | 0, _, _ => False
  | n + 1, .product p, o => ∃ c ∈ p.cgpms, o ∉ (cgpmI n).outputs c
  | n + 1, .flexMix m, o => m.rowDivide.outputs ≠ [o] ∧ Removable n m.array.base o
  | _ + 1, _, _ => False

/-- The outputs of the block that generates `o`: for a primitive block, only `o`. -/
noncomputable def blockOf : (n : Nat) → Cgpm n → Var → List Var
  | 0, _, _ => []
  | n + 1, .product p, o =>
    ((p.cgpms.find? fun c => decide (o ∈ (cgpmI n).outputs c)).map (cgpmI n).outputs).getD []
  | n + 1, .flexMix m, o => blockOf n m.array.base o
  | _ + 1, _, _ => []

/-- A column can be added: the model is a product, or a flexible mixture (of flexible mixtures …)
of products. -/
def Addable : (n : Nat) → Cgpm n → Prop
  | 0, _ => False
  | _ + 1, .product _ => True
  | n + 1, .flexMix m => Addable n m.array.base
  | _ + 1, _ => False

end Cgpm2.Spec
