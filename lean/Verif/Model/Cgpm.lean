import Verif.Model.Product
import Verif.Model.RowMix

/-!
# CGPMs nested to any depth

`Cgpm n` is the type of CGPMs built from the primitives with at most `n` levels of Product,
FiniteArray, FlexibleArray, FiniteRowMixture and FlexibleRowMixture; Python's dynamic dispatch
is the case distinction in `nodeI`.
-/

namespace Cgpm2

/-- An object of any of the classes, whose components are of class `S`. -/
inductive Node (S : Type)
  | prim (p : Prim)
  | product (p : Product S)
  | finArray (a : FinArray S)
  | flexArray (a : FlexArray S)
  | finMix (m : FinMix S)
  | flexMix (m : FlexMix S)

/-- Dispatch over the classes of the repository; `build_cgpm` (external) dispatches on the
`factory` entry of the metadata. -/
noncomputable def nodeI {S : Type} (I : Iface S) : Iface (Node S) where
  outputs
    | .prim p => primI.outputs p
    | .product p => (productI I).outputs p
    | .finArray a => (finArrayI I).outputs a
    | .flexArray a => (flexArrayI I).outputs a
    | .finMix m => (finMixI I).outputs m
    | .flexMix m => (flexMixI I).outputs m
  inputs
    | .prim p => primI.inputs p
    | .product p => (productI I).inputs p
    | .finArray a => (finArrayI I).inputs a
    | .flexArray a => (flexArrayI I).inputs a
    | .finMix m => (finMixI I).inputs m
    | .flexMix m => (flexMixI I).inputs m
  observe r o i
    | (.prim p, g) => Py.inside .prim (primI.observe r o i) (p, g)
    | (.product p, g) => Py.inside .product ((productI I).observe r o i) (p, g)
    | (.finArray a, g) => Py.inside .finArray ((finArrayI I).observe r o i) (a, g)
    | (.flexArray a, g) => Py.inside .flexArray ((flexArrayI I).observe r o i) (a, g)
    | (.finMix m, g) => Py.inside .finMix ((finMixI I).observe r o i) (m, g)
    | (.flexMix m, g) => Py.inside .flexMix ((flexMixI I).observe r o i) (m, g)
  unobserve r
    | (.prim p, g) => Py.inside .prim (primI.unobserve r) (p, g)
    | (.product p, g) => Py.inside .product ((productI I).unobserve r) (p, g)
    | (.finArray a, g) => Py.inside .finArray ((finArrayI I).unobserve r) (a, g)
    | (.flexArray a, g) => Py.inside .flexArray ((flexArrayI I).unobserve r) (a, g)
    | (.finMix m, g) => Py.inside .finMix ((finMixI I).unobserve r) (m, g)
    | (.flexMix m, g) => Py.inside .flexMix ((flexMixI I).unobserve r) (m, g)
  logpdf r t c i
    | (.prim p, g) => Py.inside .prim (primI.logpdf r t c i) (p, g)
    | (.product p, g) => Py.inside .product ((productI I).logpdf r t c i) (p, g)
    | (.finArray a, g) => Py.inside .finArray ((finArrayI I).logpdf r t c i) (a, g)
    | (.flexArray a, g) => Py.inside .flexArray ((flexArrayI I).logpdf r t c i) (a, g)
    | (.finMix m, g) => Py.inside .finMix ((finMixI I).logpdf r t c i) (m, g)
    | (.flexMix m, g) => Py.inside .flexMix ((flexMixI I).logpdf r t c i) (m, g)
  simulate r t c i N
    | (.prim p, g) => Py.inside .prim (primI.simulate r t c i N) (p, g)
    | (.product p, g) => Py.inside .product ((productI I).simulate r t c i N) (p, g)
    | (.finArray a, g) => Py.inside .finArray ((finArrayI I).simulate r t c i N) (a, g)
    | (.flexArray a, g) => Py.inside .flexArray ((flexArrayI I).simulate r t c i N) (a, g)
    | (.finMix m, g) => Py.inside .finMix ((finMixI I).simulate r t c i N) (m, g)
    | (.flexMix m, g) => Py.inside .flexMix ((flexMixI I).simulate r t c i N) (m, g)
  logpdfScore
    | .prim p => primI.logpdfScore p
    | .product p => (productI I).logpdfScore p
    | .finArray a => (finArrayI I).logpdfScore a
    | .flexArray a => (flexArrayI I).logpdfScore a
    | .finMix m => (finMixI I).logpdfScore m
    | .flexMix m => (flexMixI I).logpdfScore m
  support
    | .prim p => primI.support p
    | .product p => (productI I).support p
    | .finArray a => (finArrayI I).support a
    | .flexArray a => (flexArrayI I).support a
    | .finMix m => (finMixI I).support m
    | .flexMix m => (flexMixI I).support m
  toMetadata
    | .prim p => primI.toMetadata p
    | .product p => (productI I).toMetadata p
    | .finArray a => (finArrayI I).toMetadata a
    | .flexArray a => (flexArrayI I).toMetadata a
    | .finMix m => (finMixI I).toMetadata m
    | .flexMix m => (flexMixI I).toMetadata m
  fromMetadata
    | .product ms => ((productI I).fromMetadata (.product ms)).map .product
    | .finiteArray a b c => ((finArrayI I).fromMetadata (.finiteArray a b c)).map .finArray
    | .flexibleArray a b c d =>
      ((flexArrayI I).fromMetadata (.flexibleArray a b c d)).map .flexArray
    | .finiteRowMixture a b c => ((finMixI I).fromMetadata (.finiteRowMixture a b c)).map .finMix
    | .flexibleRowMixture a b c =>
      ((flexMixI I).fromMetadata (.flexibleRowMixture a b c)).map .flexMix
    | m => (primI.fromMetadata m).map .prim

/-- CGPMs with at most `n` levels of composition. -/
def Cgpm : Nat → Type
  | 0 => Prim
  | n + 1 => Node (Cgpm n)

/-- The interface of `Cgpm n`. -/
noncomputable def cgpmI : (n : Nat) → Iface (Cgpm n)
  | 0 => primI
  | n + 1 => nodeI (cgpmI n)

end Cgpm2
