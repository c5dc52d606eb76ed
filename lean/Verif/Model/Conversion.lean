import Verif.Model.Render
import Verif.Model.TransitionViews

/-!
# src/conversion.py: from a state of cgpm (the predecessor of this library) to a CrossCat, and to a tree

The state of cgpm is outside the repository.  Of it only what is read is modelled: the views in the
order of `state.views.values()`, and of each view `dims`, `crp`, `Zr()` and `X`.
-/

namespace Cgpm2.Conversion
open Views

/-- What is read of a dimension: `dim.cctype`, `dim.outputs`, `dim.hypers` and `dim.distargs['k']`.
A `k` that is not a natural number is outside the model. -/
structure Dim where
  cctype : String
  outputs : List Var
  hypers : Dict String ℝ
  k : Option Nat

/-- What is read of a view: `view.dims.values()`, `view.crp`, `view.Zr()` and `view.X`.  A column of `X`
is a list there; here it has its entries by row id, and asking for a row it does not have raises
KeyError instead of IndexError. -/
structure SourceView where
  dims : List Dim
  crp : Dim
  Zr : Dict RowId Int
  X : Dict Var (Dict RowId Val)

/-- `convert_dim_to_base_cgpm` and `cctype_to_primitive` (src/conversion.py:22-32). -/
noncomputable def convertDim (d : Dim) : Except Err Prim :=
  if d.cctype = "categorical" then
    match d.k with
    | some k => .ok (.categorical (Categorical.init d.outputs [] d.hypers [] k))
    -- distargs['k'] (src/categorical.py:34).
    | none => .error .keyError
  else if d.cctype = "crp" then .ok (.crp (Crp.init d.outputs [] d.hypers []))
  else if d.cctype = "normal" then (Normal.init d.outputs [] d.hypers []).map .normal
  else if d.cctype = "poisson" then (Poisson.init d.outputs [] d.hypers []).map .poisson
  else .error .keyError

/-- `obs_x` (src/conversion.py:48). -/
def cellsOf (X : Dict Var (Dict RowId Val)) (cols : List Var) (rowid : RowId) : Except Err (Dict Var Val) :=
  cols.mapM fun c => do
    let column ← Dict.getItem X c
    let x ← Dict.getItem column rowid
    pure (c, x)

/-- The loop over the rows (src/conversion.py:46-50). -/
noncomputable def observeRows (z : Var) (cols : List Var) (X : Dict Var (Dict RowId Val)) :
    List (RowId × Int) → Py (View × Rng) Unit
  | [] => pure ()
  | (rowid, assignment) :: rest => do
    let obsX ← Py.lift (cellsOf X cols rowid)
    (cgpmI 2).observe rowid (merged [(z, .num (assignment : ℚ))] obsX) []
    observeRows z cols X rest

/-- `convert_view_to_rowmixture` (src/conversion.py:40-51).  `unique` gives the order in which Python
enumerates `set(Zr.itervalues())`. -/
noncomputable def convertView (unique : List Int → List Int) (view : SourceView) : Py Rng View := fun g =>
  match (do
      let cgpms ← view.dims.mapM convertDim
      let base ← Product.init primI cgpms
      let divide ← convertDim view.crp
      let mix ← FlexMix.init divide (.product base : Node Prim)
      let rows ← rebaseRowAssignments (unique (Dict.values view.Zr)) view.Zr
      pure (base, mix, rows) :
        Except Err (Product Prim × FlexMix (Node Prim) × List (RowId × Int))) with
  | .error e => (.error e, g)
  | .ok (base, mix, rows) =>
    match observeRows mix.indexer (Product.outputs primI base) view.X rows ((.flexMix mix : Node (Node Prim)), g) with
    | (.ok _, (v, g')) => (.ok v, g')
    | (.error e, (_, g')) => (.error e, g')

/-- `convert_cgpm_state_to_cgpm2` (src/conversion.py:53-55). -/
noncomputable def convertState (unique : List Int → List Int) (state : List SourceView) : Py Rng Crosscat := do
  let views ← Py.mapL (convertView unique) state
  Py.lift (Product.init (cgpmI 2) views)

/-- The trees made by `convert_cgpm_to_ast`: `((name, distargs), hypers)`, a list, or a pair. -/
inductive Ast
  | dist (name : String) (k : Option Nat) (hypers : Dict String ℝ)
  | list (l : List Ast)
  | mixture (divide base : Ast)

/-- `name()` of the primitive classes (src/crp.py:181, src/categorical.py:135, src/bernoulli.py:139,
src/normal.py:162, src/normal_uc.py:148, src/poisson.py:143). -/
def className : Prim → String
  | .crp _ => "crp"
  | .categorical _ => "categorical"
  | .bernoulli _ => "bernoulli"
  | .normal _ => "normal"
  | .normalUC _ => "normal_uc"
  | .poisson _ => "poisson"

/-- `get_distargs()['k']` (src/categorical.py:121-122); the other primitives have none. -/
def distargsK : Prim → Option Nat
  | .categorical c => some c.k
  | _ => none

/-- The first case of `convert_cgpm_to_ast` (src/conversion.py:61-66). -/
def primAst (p : Prim) : Ast := .dist (className p) (distargsK p) p.getHypers

/-- `convert_cgpm_to_ast` (src/conversion.py:59-81).  Chains are not in the tower. -/
def convertToAst : (n : Nat) → Cgpm n → Except Err Ast
  | 0, p => .ok (primAst p)
  | _ + 1, .prim p => .ok (primAst p)
  | n + 1, .product p => do
    let l ← p.cgpms.mapM (convertToAst n)
    pure (.list l)
  | n + 1, .flexMix m => do
    let base ← convertToAst n m.array.base
    pure (.mixture (primAst m.rowDivide) base)
  | _ + 1, .finMix _ => .error .notImplemented
  | _ + 1, .flexArray _ => .error .notImplemented
  | _ + 1, .finArray _ => .error .notImplemented

end Cgpm2.Conversion
