import Verif.Model.Cgpm

/-!
# The observations rendered by src/sample_crosscat.py, and src/conversion.py

The views rendered by `sample_crosscat.py` are built by its own DSL: a FlexibleRowMixture with a
CRP divider over a Product of primitives (src/sample_crosscat.py:227-250).  The functions are
modelled on such views, and raise AttributeError on others.
-/

namespace Cgpm2

/-- `sorted(set(l))`. -/
def sortedSet (l : List Int) : List Int := pySorted l.dedup

/-- `next(observes[0].iterkeys())` (src/sample_crosscat.py:313, src/sample_crosscat.py:321). -/
def firstKey (observes : List (Dict Var Int)) : Except Err Var :=
  match observes with
  | [] => .error .indexError
  | [] :: _ => .error .stopIteration
  | ((output, _) :: _) :: _ => .ok output

/-- `l[0]`. -/
def firstItem {α : Type} : List α → Except Err α
  | [] => .error .indexError
  | a :: _ => .ok a

/-- `reindex_crp_observes` (src/sample_crosscat.py:312-318). -/
def reindexCrpObserves (observes : List (Dict Var Int)) : Except Err (List (Dict Var Int)) := do
  let output ← firstKey observes
  if observes.any (fun observe => Dict.keys observe ≠ [output]) then throw .assertionError
  let assignments ← observes.mapM firstItem
  let tables := sortedSet (assignments.map fun a => a.2)
  let mapping : Dict Int Int := tables.zipIdx.map fun ti => (ti.1, (ti.2 : Int))
  assignments.mapM fun a => do
    let i ← Dict.getItem mapping a.2
    pure [(a.1, i)]

/-- The loop of `get_sorted_rowids` (src/sample_crosscat.py:324-329). -/
def groupRowids (output : Var) :
    List (RowId × Dict Var Int) → Dict Int (List RowId) → Except Err (Dict Int (List RowId))
  | [], groups => .ok groups
  | (rowid, observe) :: rest, groups => do
    let table ← Dict.getItem observe output
    let groups := if Dict.has groups table then groups else Dict.set groups table []
    let l ← Dict.getItem groups table
    groupRowids output rest (Dict.set groups table (l ++ [rowid]))

/-- `get_sorted_rowids` (src/sample_crosscat.py:320-333). -/
def getSortedRowids (rowids : List RowId) (observes : List (Dict Var Int)) :
    Except Err (List RowId) := do
  let output ← firstKey observes
  if observes.any (fun observe => Dict.keys observe ≠ [output]) then throw .assertionError
  if observes.length ≠ rowids.length then throw .assertionError
  let groups ← groupRowids output (rowids.zip observes) []
  let ls ← (pySorted (Dict.keys groups)).mapM fun t => Dict.getItem groups t
  pure ls.flatten

/-- `get_primitive_observes` (src/sample_crosscat.py:335-338) of a CRP, whose data are ints.  A
primitive has one output. -/
def getCrpObserves (crp : Crp) (rowid : RowId) : Dict Var Int :=
  match Dict.get? crp.data rowid with
  | none => []
  | some t => [(crp.outputs.headD 0, t)]

/-- `get_primitive_observes` (src/sample_crosscat.py:335-338).  A primitive has one output. -/
def getPrimitiveObserves (primitive : Prim) (rowid : RowId) : Dict Var Val :=
  match Dict.get? primitive.data rowid with
  | none => []
  | some v => [(primitive.outputs.headD 0, v)]

/-- `get_product_observes` (src/sample_crosscat.py:340-342). -/
def getProductObserves (product : Node Prim) (rowid : RowId) : Except Err (Dict Var Val) :=
  match product with
  | .product p => .ok (mergedl (p.cgpms.map fun c => getPrimitiveObserves c rowid))
  | _ => .error .attributeError

/-- `get_components_observes` (src/sample_crosscat.py:344-350). -/
def getComponentsObserves (components : FlexArray (Node Prim)) (rowid : RowId) :
    Except Err (Dict Var Val) := do
  let all ← (Dict.values components.cgpms).mapM fun product => getProductObserves product rowid
  match all.filter (fun x => x ≠ []) with
  | [observe] => .ok observe
  | _ => .error .assertionError

/-- A dict of table numbers as a dict of values. -/
def tableVals (d : Dict Var Int) : Dict Var Val := d.map fun kv => (kv.1, .num (kv.2 : ℚ))

/-- The divider of a view (src/sample_crosscat.py:355). -/
def viewCrp (view : FlexMix (Node Prim)) : Except Err Crp :=
  match view.rowDivide with
  | .crp c => .ok c
  | _ => .error .attributeError

/-- `get_view_observes` (src/sample_crosscat.py:352-377). -/
def getViewObserves (view : FlexMix (Node Prim)) : Except Err (Dict RowId (Dict Var Val)) := do
  let crp ← viewCrp view
  let rowids := Dict.keys crp.data
  let reindex ← reindexCrpObserves (rowids.map (getCrpObserves crp))
  let sortedRowids ← getSortedRowids rowids reindex
  let rowidToIndex : Dict RowId Nat := sortedRowids.zipIdx
  let observeCrpSorted ← sortedRowids.mapM fun rowid => do
    let i ← Dict.getItem rowidToIndex rowid
    match reindex[i]? with
    | some observe => Except.ok observe
    | none => Except.error Err.indexError
  let observeComponentsSorted ← sortedRowids.mapM (getComponentsObserves view.array)
  pure ((sortedRowids.zip (observeCrpSorted.zip observeComponentsSorted)).map fun t =>
    (t.1, merged (tableVals t.2.1) t.2.2))

/-- `get_view_observes_crp_vs` (src/sample_crosscat.py:468-479). -/
def getViewObservesCrpVs (view : FlexMix (Node Prim)) : Except Err (List (RowId × Int)) := do
  let crp ← viewCrp view
  let rowids := Dict.keys crp.data
  if rowids = [] then pure []
  else do
    let reindex ← reindexCrpObserves (rowids.map (getCrpObserves crp))
    (rowids.zip reindex).mapM fun ro => do
      let t ← firstItem (Dict.values ro.2)
      pure (ro.1, t)

/-- `get_view_observes_data_vs` (src/sample_crosscat.py:481-494).  The `rowid` of line 493 is the
variable left over from the list comprehension of lines 486-489, which in Python 2 is the last
row id.  Variable names `var-<output>` are left as outputs. -/
def getViewObservesDataVs (view : FlexMix (Node Prim)) :
    Except Err (List (RowId × Var × Val)) := do
  let crp ← viewCrp view
  let rowids := Dict.keys crp.data
  match rowids.getLast? with
  | none => pure []
  | some last => do
    let observeComponents ← rowids.mapM (getComponentsObserves view.array)
    pure (observeComponents.flatMap fun obs => obs.map fun kv => (last, kv.1, kv.2))

/-- `rebase_cgpm_row_assignments` (src/conversion.py:34-38).  `uniqueTables` lists the elements of
the set in the order Python enumerates them. -/
def rebaseRowAssignments (uniqueTables : List Int) (Zr : Dict RowId Int) :
    Except Err (List (RowId × Int)) := do
  let tablesMap : Dict Int Int := uniqueTables.zipIdx.map fun ti => (ti.1, (ti.2 : Int))
  let tablesNew ← Zr.mapM fun kv => do
    let i ← Dict.getItem tablesMap kv.2
    pure (kv.1, i)
  pure (tablesNew.insertionSort fun a b => a.2 ≤ b.2)

end Cgpm2
