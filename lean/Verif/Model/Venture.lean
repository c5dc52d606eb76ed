import Verif.Model.CoreEmbedded
import Verif.Model.TransitionCrosscat
import Verif.Model.Render

/-!
# The VentureScript programs rendered by src/sample_crosscat.py

The layout of the program is not modelled: a program is here the list of the entries of its three
dicts and of its observes.  The makers of distributions are calls in the text, with their numbers
written by `%1.4f`; here they keep the numbers as they are.  Floats are exact.
-/

namespace Cgpm2.Venture
open Views Conversion

/-- The call of a maker: `make_nig_normal(m, r, s, nu)`, `make_gamma_poisson(a, b)` or
`make_symm_dirichlet_categorical(k, alpha)`. -/
structure Maker where
  name : String
  k : Option Nat
  args : List ℝ
deriving Inhabited

/-- `get_primitive_distribution` (src/sample_crosscat.py:423-441); the variable name `var-<output>`
is left as the output.  A primitive has one output. -/
noncomputable def primitiveDistribution (cgpm : Prim) : Except Err (Var × Maker) :=
  let varname := cgpm.outputs.headD 0
  let hypers := cgpm.getHypers
  if className cgpm = "normal" then do
    let m ← Dict.getItem hypers "m"
    let r ← Dict.getItem hypers "r"
    let s ← Dict.getItem hypers "s"
    let nu ← Dict.getItem hypers "nu"
    pure (varname, ⟨"make_nig_normal", none, [m, r, s, nu]⟩)
  else if className cgpm = "poisson" then do
    let a ← Dict.getItem hypers "a"
    let b ← Dict.getItem hypers "b"
    pure (varname, ⟨"make_gamma_poisson", none, [a, b]⟩)
  else if className cgpm = "categorical" then do
    let alpha ← Dict.getItem hypers "alpha"
    pure (varname, ⟨"make_symm_dirichlet_categorical", distargsK cgpm, [alpha]⟩)
  else throw .assertionError

/-- `get_product_distributions` (src/sample_crosscat.py:443-444). -/
noncomputable def productDistributions : Node Prim → Except Err (List (Var × Maker))
  | .product product => product.cgpms.mapM primitiveDistribution
  | _ => .error .attributeError

/-- `get_crp_tables_weights` (src/sample_crosscat.py:459-466).  Without tables it gives the number
zero instead of a list: `none`. -/
def crpTablesWeights (crp : Crp) : Except Err (Option (List Int) × List ℚ) :=
  let tables := pySorted (Dict.keys crp.counts)
  if tables = [] then .ok (none, [1])
  else do
    let counts ← tables.mapM fun table => Dict.getItem crp.counts table
    let sumCounts : ℚ := (counts.sum : Int)
    pure (some tables, counts.map fun c : Int => (c : ℚ) / sumCounts)

/-- `get_array_distributions` (src/sample_crosscat.py:446-453); a number is not iterable. -/
noncomputable def arrayDistributions (array : FlexArray (Node Prim)) (tables : Option (List Int)) :
    Except Err (List (List (Var × Maker))) :=
  if array.cgpms.length = 0 then do
    let base ← productDistributions array.base
    pure [base]
  else match tables with
    | none => .error .typeError
    | some tables => tables.mapM fun table : Int => do
      let cgpm ← Dict.getItem array.cgpms (.num (table : ℚ))
      productDistributions cgpm

/-- `tranpose_product_list` (src/sample_crosscat.py:455-457). -/
def transposeProducts {α : Type} (products : List (List α)) : Except Err (List (List α)) := do
  let first ← firstItem products
  (List.range first.length).mapM fun i => products.mapM fun prod => match prod[i]? with
    | some a => Except.ok a
    | none => Except.error Err.indexError

/-- `VSView` (src/sample_crosscat.py:409-414). -/
structure VsView where
  weights : List ℚ
  distributions : List (List (Var × Maker))
  observesCrp : List (RowId × Int)
  observesData : List (RowId × Var × Val)

/-- `get_view_representation` (src/sample_crosscat.py:496-515). -/
noncomputable def viewRepresentation (view : FlexMix (Node Prim)) : Except Err VsView := do
  let crp ← viewCrp view
  let (tables, weights) ← crpTablesWeights crp
  let products ← arrayDistributions view.array tables
  let primitives ← transposeProducts products
  if ¬ ∀ p ∈ primitives, p.length = weights.length then throw .assertionError
  let observesCrp ← getViewObservesCrpVs view
  let observesData ← getViewObservesDataVs view
  pure ⟨weights, primitives, observesCrp, observesData⟩

/-- `get_variables_to_view_assignment` (src/sample_crosscat.py:517-524). -/
noncomputable def variablesToView (x : Crosscat) : Except Err (List (Var × Nat)) := do
  let outputs := pySorted (distributionOutputs x)
  let idx ← outputs.mapM fun output => viewIndex x [output]
  pure (outputs.zip idx)

/-- `convert_trace_to_venturescript_ast` (src/sample_crosscat.py:526-529). -/
noncomputable def convertTrace (x : Crosscat) : Except Err (List VsView × List (Var × Nat)) := do
  let views ← x.cgpms.mapM fun view : Node (Node Prim) => match view with
    | .flexMix m => viewRepresentation m
    | _ => .error .attributeError
  let assignment ← variablesToView x
  pure (views, assignment)

/-- `convert_variable_name` (src/sample_crosscat.py:419-421) of `var-<output>`: a minus sign of the
output is taken for the dash. -/
def variableName (schema : List String) (output : Var) : Except Err String :=
  if output < 0 then .error .valueError
  else match schema[output.toNat]? with
    | some name => .ok name
    | none => .error .indexError

/-- One entry written by `compile_distributions_view` (src/sample_crosscat.py:531-552).  `zip(*l)` of
an empty list cannot be unpacked into two. -/
def distributionEntry (schema : List String) (distributions : List (Var × Maker)) :
    Except Err (String × List Maker) :=
  match distributions with
  | [] => .error .valueError
  | (varname, _) :: _ =>
    if ¬ ∀ d ∈ distributions, d.1 = varname then .error .assertionError
    else do
      let name ← variableName schema varname
      pure (name, distributions.map Prod.snd)

/-- The program: the entries of `variable_to_distributions`, `variable_to_view_assignment` and
`view_to_mixture_weights`, where the views are numbered by their position, and the observes. -/
structure Script where
  distributions : List (String × List Maker)
  assignment : List (String × Nat)
  weights : List (List ℚ)
  observesCrp : List (List (RowId × Int))
  observesData : List (List (RowId × String × Val))

/-- `render_trace_in_venturescript` (src/sample_crosscat.py:630-658) with the observes;
`compile_distributions_list` (:554-562), `compile_weights_list` (:564-573),
`compile_variable_to_view_assignment` (:575-586), `compile_observes_crp_list` (:604-615),
`compile_observes_data_list` (:617-628), whose cells that are `nan` are left out of the explicit
observes only. -/
noncomputable def render (x : Crosscat) (schema : List String) : Except Err Script := do
  let (views, assignment) ← convertTrace x
  let distributions ← views.mapM fun v => v.distributions.mapM (distributionEntry schema)
  let sorted := assignment.insertionSort fun a b => a.2 ≤ b.2
  let entries ← sorted.mapM fun a => do
    let name ← variableName schema a.1
    pure (name, a.2)
  let data ← views.mapM fun v => v.observesData.mapM fun d => do
    let name ← variableName schema d.2.1
    pure (d.1, name, d.2.2)
  pure ⟨distributions.flatten, entries, views.map VsView.weights, views.map VsView.observesCrp, data⟩

end Cgpm2.Venture
