import Verif.Model.CoreText
import Verif.Model.Conversion

/-!
# The embedded DSL of src/sample_crosscat.py: programs that build a CrossCat, and back to an AST

The program is Python text that is run with `exec`.  Its layout is not modelled: a program is here the
list of its assignments, each of them the arguments of the constructors it calls.  Python evaluates the
literals the compiler writes to the values it wrote, and the names bound by the import statements are
those of `primitive_constructors`.
-/

namespace Cgpm2.CoreDsl
open Views Conversion

/-- The call of a constructor, `Constructor(outputs=[output], inputs=[], **kwargs)`
(src/sample_crosscat.py:213-225). -/
structure Call where
  constructor : Str
  output : Int
  kwargs : Dict Str Yaml

/-- The program: for each view the arguments of `FlexibleRowMixture(cgpm_row_divide=…,
cgpm_components_base=Product(cgpms=[…]))` (src/sample_crosscat.py:237-250), and at the end the Product
of all views (src/sample_crosscat.py:265-266). -/
abbrev Program := List (Call × List Call)

/-- `primitive_constructors` (src/sample_crosscat.py:183-188). -/
def primitiveConstructors : Dict Str Str :=
  [("categorical".toList, "Categorical".toList), ("crp".toList, "CRP".toList),
    ("normal".toList, "Normal".toList), ("poisson".toList, "Poisson".toList)]

/-- `v is not None` (src/sample_crosscat.py:223). -/
def Yaml.isSome : Yaml → Bool
  | .null => false
  | _ => true

/-- `embedded_compile_primitive` (src/sample_crosscat.py:213-225). -/
def compilePrimitive (y : Yaml) : Except Err Call :=
  match y with
  | .map [(key, body)] => do
    let (distname, output) ← parseKey key
    let constructor ← Dict.getItem primitiveConstructors distname
    match body with
    | .map kwargs => pure ⟨constructor, output, kwargs.filter fun kv => kv.2.isSome⟩
    | _ => throw .attributeError
  | .map _ => .error .assertionError
  | .seq [_] => .error .attributeError
  | .seq _ => .error .assertionError
  | _ => .error .typeError

/-- `embedded_compile_row_mixture` (src/sample_crosscat.py:237-250) and `embedded_compile_product`
(src/sample_crosscat.py:227-235). -/
def compileRowMixture (y : Yaml) : Except Err (Call × List Call) := do
  let rows ← y.getItem "row clustering model".toList
  let rowClustering ← rows.first
  let distributions ← y.getItem "distribution models".toList
  let divide ← compilePrimitive rowClustering
  let ds ← distributions.list
  let calls ← ds.mapM compilePrimitive
  pure (divide, calls)

/-- `compile_core_dsl_to_embedded_dsl` (src/sample_crosscat.py:252-267). -/
def compileEmbedded (text : Str) : Except Err Program := do
  let y ← yamlLoad text
  let views ← y.list
  views.mapM fun view => do
    let v ← view.getItem "view".toList
    compileRowMixture v

/-- The entries of a dict of numbers.  Other values are outside the model. -/
def Yaml.numbers : Yaml → Except Err (Dict Str ℚ)
  | .map d => d.mapM fun kv => match kv.2 with
    | .num q => .ok (kv.1, q)
    | _ => .error .typeError
  | _ => .error .typeError

/-- The classes the constructors are bound to, by their `name()`. -/
def classOf (constructor : Str) : Str :=
  if constructor = "Categorical".toList then "categorical".toList
  else if constructor = "CRP".toList then "crp".toList
  else if constructor = "Normal".toList then "normal".toList
  else "poisson".toList

/-- A keyword argument; without it the default is an empty dict. -/
def kwarg (kwargs : Dict Str Yaml) (name : Str) : Except Err (Dict Str ℚ) :=
  match Dict.get? kwargs name with
  | none => .ok []
  | some y => y.numbers

/-- `int(distargs['k'])` (src/categorical.py:34), if there is one.  It is not negative. -/
def kOf (distargs : Dict Str ℚ) : Option Nat :=
  (Dict.get? distargs "k".toList).map fun q => (truncate q).toNat

/-- The arguments of a constructor, as in src/conversion.py:29-32. -/
noncomputable def Call.dim (c : Call) : Except Err Dim := do
  let distargs ← kwarg c.kwargs "distargs".toList
  let hypers ← kwarg c.kwargs "hypers".toList
  pure ⟨String.ofList (classOf c.constructor), [c.output],
    hypers.map fun kv => (String.ofList kv.1, (kv.2 : ℝ)), kOf distargs⟩

/-- Evaluate the call of a constructor. -/
noncomputable def execCall (c : Call) : Except Err Prim := do
  let d ← c.dim
  convertDim d

/-- Evaluate the assignment of a view. -/
noncomputable def execView (v : Call × List Call) : Except Err View := do
  let divide ← execCall v.1
  let cgpms ← v.2.mapM execCall
  let base ← Product.init primI cgpms
  let m ← FlexMix.init divide (.product base : Node Prim)
  pure (.flexMix m : Node (Node Prim))

/-- `interpret_embedded_dsl` (src/sample_crosscat.py:271-273). -/
noncomputable def interpretEmbedded (p : Program) : Except Err Crosscat := do
  let views ← p.mapM execView
  Product.init (cgpmI 2) views

/-- `interpret_ast` (src/sample_crosscat.py:275-278). -/
noncomputable def interpretAst (ast : Ast) : Except Err Crosscat := do
  let p ← compileEmbedded (compileAst ast)
  interpretEmbedded p

/-! ## CrossCat to AST -/

/-- `(output, (name, distargs), hypers)`, where `distargs` is `{'k': k}` or `None`. -/
structure Converted where
  output : Int
  name : String
  k : Option Nat
  hypers : Dict String ℝ

/-- `convert_primitive_to_ast` (src/sample_crosscat.py:282-286).  A primitive has one output. -/
def convertPrimitive (p : Prim) : Converted :=
  ⟨p.outputs.headD 0, className p, distargsK p, p.getHypers⟩

/-- `convert_view_to_ast` and `convert_product_to_ast` (src/sample_crosscat.py:288-296), of a
FlexibleRowMixture over a Product of primitives; other views are not made by this file. -/
def convertView : View → Except Err (Converted × List Converted)
  | .flexMix m => match m.array.base with
    | .product p => .ok (convertPrimitive m.rowDivide, p.cgpms.map convertPrimitive)
    | _ => .error .attributeError
  | _ => .error .attributeError

/-- `convert_crosscat_to_ast` (src/sample_crosscat.py:298-299). -/
def convertCrosscat (x : Crosscat) : Except Err (List (Converted × List Converted)) :=
  x.cgpms.mapM convertView

end Cgpm2.CoreDsl
