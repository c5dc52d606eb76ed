import Verif.Model.TransitionCrosscat

/-!
# src/transition_crosscat_cpp.py: what is done with the answer of the C++ engine

The order in which Python enumerates a set of numbers is a parameter.
-/

namespace Cgpm2.Views
open Cpp

/-- `get_crosscat_dataset` (src/transition_crosscat_cpp.py:41-47).  `get_distribution_outputs`
(src/transition_crosscat_cpp.py:30-33) is the function of src/transition_crosscat.py:35-38. -/
noncomputable def crosscatDataset (x : Crosscat) : Except Err (Dict Var (Dict RowId Val)) := do
  let outputs := distributionOutputs x
  let datasets ← outputs.mapM fun output => do
    let raw ← getDataset (n := 3) (whole x) output
    let pairs ← raw.mapM fun ro => do
      let v ← Dict.getItem ro.2 output
      pure (ro.1, v)
    pure (pairs.foldl (fun d kv => Dict.set d kv.1 kv.2) [])
  pure (dictZip outputs datasets)

/-- `name()` of the classes, as far as it matters here (src/normal.py:162-163,
src/categorical.py:135-136, src/bernoulli.py:139-140, src/poisson.py:143-144, src/normal_uc.py:148-149). -/
def cctype : Prim.Kind → CcType
  | .normal => .normal
  | .categorical => .categorical
  | _ => .other

/-- The answer of the engine, as far as it is used: the length of `M_c['name_to_idx']`, the model
types of `M_c['column_metadata']`, the assignments of `X_L['column_partition']`, the length of
`X_L['view_state']` and `X_D` (src/transition_crosscat_cpp.py:279-303). -/
structure Answer where
  names : Nat
  modeltypes : List CcType
  assignments : List Int
  viewStates : Nat
  xd : List (List Int)

/-- The loop over the types of the columns (src/transition_crosscat_cpp.py:280-287), from position
`i` on. -/
def checkTypes (modeltypes : List CcType) : Nat → List CcType → Except Err Unit
  | _, [] => .ok ()
  | i, c :: cs =>
    match modeltypes[i]? with
    | none => .error .indexError
    | some m =>
      if c = .other then .error .assertionError
      else if m ≠ c then .error .assertionError
      else checkTypes modeltypes (i + 1) cs

/-- The checks of `_get_crosscat_updated` (src/transition_crosscat_cpp.py:273-294).  The arguments
and hyperparameters of the columns are fetched too but not used. -/
noncomputable def checkAnswer (x : Crosscat) (a : Answer) : Except Err Unit := do
  let outputs := distributionOutputs x
  let bases ← outputs.mapM fun output => cgpmBase (n := 3) (whole x) output
  -- `zip` of no lists has nothing to unpack
  if outputs = [] then throw .valueError
  if a.names ≠ outputs.length then throw .assertionError
  checkTypes a.modeltypes 0 (bases.map fun p => cctype p.kind)
  if ¬ ∀ p ∈ a.xd, (a.xd.headD []).length = p.length then throw .assertionError
  if a.xd.length ≠ a.viewStates then throw .assertionError
  if a.assignments.length ≠ outputs.length then throw .assertionError

/-- `observations_to_rowids_mapping` (src/transition_crosscat_cpp.py:108-112): the row ids, in
order. -/
def rowidsMapping (observations : Dict Var (Dict RowId Val)) : Except Err (List RowId) :=
  match observations with
  | [] => .error .indexError
  | d :: ds =>
    if ¬ ∀ e ∈ ds, (∀ r ∈ Dict.keys d.2, r ∈ Dict.keys e.2) ∧ (∀ r ∈ Dict.keys e.2, r ∈ Dict.keys d.2)
    then .error .assertionError
    else .ok ((Dict.keys d.2).insertionSort fun a b => rowLe a b)

/-- `mapping[i]` of a dict whose keys are `0, …, n-1` (src/transition_crosscat_cpp.py:297, 306, 315). -/
def numbered {α : Type} (mapping : List α) (i : Nat) : Except Err α :=
  match mapping[i]? with
  | none => .error .keyError
  | some a => .ok a

/-- `crosscat = set_cgpm_view_assignment(crosscat, output0, output1)`
(src/transition_crosscat_cpp.py:307, 309). -/
noncomputable def reassign (output0 : Var) (output1 : Option Var) : Py (Crosscat × Rng) Unit := do
  let x ← setViewAssignment output0 output1
  fun st => (.ok (), (x, st.2))

/-- The body of the loop over the blocks of rows (src/transition_crosscat_cpp.py:315-318).  Row ids
of one block are different, so they are the same object only if both are None in line 316. -/
noncomputable def moveRows (rowids : List RowId) (block : List Nat) : Py (View × Rng) Unit := do
  let members ← Py.lift (block.mapM (numbered rowids))
  match members with
  | [] => Py.throw .indexError
  | r0 :: rs => do
    setRowidComponent (cgpmI 1) (decide (r0 = none)) r0 none
    let _ ← Py.mapL (fun rm => (setRowidComponent (cgpmI 1) false rm r0 : Py (Node (Cgpm 1) × Rng) Unit)) rs
    pure ()

/-- The body of the loop over the blocks of columns (src/transition_crosscat_cpp.py:306-318). -/
noncomputable def moveBlock (unique : List Int → List Int) (outputs : List Var) (rowids : List RowId)
    (block : List Nat) (rows : List Int) : Py (Crosscat × Rng) Unit := do
  let members ← Py.lift (block.mapM (numbered outputs))
  match members with
  | [] => Py.throw .indexError
  | m0 :: ms => do
    reassign m0 none
    let _ ← Py.mapL (fun m => reassign m (some m0)) ms
    let (x, _) ← Py.get
    let i ← Py.lift (viewIndex x members)
    onView i do
      let _ ← Py.mapL (moveRows rowids) (partitionToBlocks (unique rows) rows)
      pure ()

/-- `_get_crosscat_updated` (src/transition_crosscat_cpp.py:272-319).  The state is the value of the
variable `crosscat`, which is returned. -/
noncomputable def updateCrosscat (unique : List Int → List Int)
    (observations : Dict Var (Dict RowId Val)) (a : Answer) : Py (Crosscat × Rng) Unit := do
  let (x, _) ← Py.get
  Py.lift (checkAnswer x a)
  let outputs := distributionOutputs x
  let rowids ← Py.lift (rowidsMapping observations)
  let blocks := partitionToBlocks (unique a.assignments) a.assignments
  Py.assert (blocks.length = a.xd.length)
  let _ ← Py.mapL (fun br : List Nat × List Int => moveBlock unique outputs rowids br.1 br.2)
    (blocks.zip a.xd)
  pure ()

end Cgpm2.Views
