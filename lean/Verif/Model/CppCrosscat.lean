import Verif.Model.Walks
import Verif.Model.CoreDsl

/-!
# src/transition_crosscat_cpp.py: what is handed to the C++ engine

Python's enumeration order of a set is a parameter.
-/

namespace Cgpm2.Cpp
open CoreDsl

/-- `partition_assignments_to_blocks` (src/transition_crosscat_cpp.py:26-28).  `unique` lists the
elements of the set in the order Python enumerates them. -/
def partitionToBlocks (unique assignments : List Int) : List (List Nat) :=
  unique.map fun u => (assignments.zipIdx.filter fun ai => ai.1 = u).map Prod.snd

/-- The types of column (src/transition_crosscat_cpp.py:62-79): other classes raise. -/
inductive CcType
  | normal | categorical | other
  deriving DecidableEq

/-- The metadata of a column (src/transition_crosscat_cpp.py:63-77).  The model type follows from
`cctype`. -/
structure ColMeta where
  modeltype : CcType
  valueToCode : Dict Str Str
  codeToValue : Dict Str Nat

/-- `dict(zip(ks, vs))` (external): later pairs win. -/
def dictZip {K V : Type} [DecidableEq K] (ks : List K) (vs : List V) : Dict K V :=
  (ks.zip vs).foldl (fun d kv => Dict.set d kv.1 kv.2) []

/-- The numbers of a list of values that are not NaN. -/
def numbers (l : List Val) : List ℚ := l.filterMap fun v =>
  match v with
  | .nan => none
  | .num q => some q

/-- `create_metadata` (src/transition_crosscat_cpp.py:61-79).  `ordered` is `sorted(set(data))`: a
list of the elements of `data`, each number once, in an order that is increasing when there is no
NaN (with NaN Python's sort can return any order). -/
def createMetadata (ordered : List Val) (cctype : CcType) (k : Nat) : Except Err ColMeta :=
  match cctype with
  | .normal => .ok ⟨.normal, [], []⟩
  | .categorical =>
    let categories := numbers ordered
    if ¬ ∀ c ∈ categories, 0 ≤ c ∧ c < k then .error .assertionError
    else
      let codes := categories.map fun c => decimal (truncate c)
      let ncodes := List.range codes.length
      .ok ⟨.categorical, dictZip (ncodes.map fun n : Nat => decimal n) codes, dictZip codes ncodes⟩
  | .other => .error .assertionError

/-- `crosscat_value_to_code` (src/transition_crosscat_cpp.py:114-125), given the metadata of the
column. -/
def valueToCode (col : ColMeta) (val : Val) : Except Err Val :=
  match val with
  | .nan => .ok .nan
  | .num q =>
    if col.codeToValue ≠ [] then do
      if ¬ Dict.has col.codeToValue (decimal (truncate q)) then throw .assertionError
      let n ← Dict.getItem col.codeToValue (decimal (truncate q))
      pure (.num (n : ℚ))
    else .ok (.num q)

/-- The order of row ids; None is less than any number in Python 2. -/
def rowLe : RowId → RowId → Bool
  | none, _ => true
  | some _, none => false
  | some a, some b => a ≤ b

/-- `get_dataset` (src/transition_views.py:21-28).  The objects found by the walk are
DistributionCGPMs. -/
noncomputable def getDataset {n : Nat} (c : Cgpm n) (output : Var) :
    Except Err (List (RowId × Dict Var Val)) := do
  let refs ← cgpmsByOutput n c output
  pure (refs.objs.flatMap fun p => p.data.map fun rv => (rv.1, [(p.outputs.headD 0, rv.2)]))

/-- `get_crosscat_dataset_one` (src/transition_crosscat_cpp.py:35-39). -/
noncomputable def datasetOne {n : Nat} (c : Cgpm n) (output : Var) : Except Err (List Val) := do
  let raw ← getDataset c output
  let sorted := raw.insertionSort fun a b => rowLe a.1 b.1
  sorted.mapM fun rv => Dict.getItem rv.2 output

/-- The order of numbers. -/
def valLe : Val → Val → Bool
  | .num a, .num b => a ≤ b
  | _, _ => false

/-- The numbering of the clusters of one view (src/transition_crosscat_cpp.py:147-159). -/
def renumber (assignment : List Val) : Except Err (List Nat) := do
  let blocks := assignment.dedup.insertionSort fun a b => valLe a b
  let blockToCode : Dict Val Nat := blocks.zipIdx
  assignment.mapM fun b => Dict.getItem blockToCode b

/-- `_get_crosscat_X_D` (src/transition_crosscat_cpp.py:140-162), of a Product of views. -/
noncomputable def getXD {n : Nat} (crosscat : Product (Cgpm n)) : Except Err (List (List Nat)) := do
  let assignments ← crosscat.cgpms.mapM fun view =>
    datasetOne (n := n + 1) (.product crosscat : Node (Cgpm n)) (((cgpmI n).outputs view).headD 0)
  assignments.mapM renumber

/-- The budget of `transition_cpp` (src/transition_crosscat_cpp.py:349-363): the number of steps and
the time limit handed to the engine. -/
def budget (N S : Option Int) : Except Err (Int × Int) :=
  -- The assignments of lines 350-351 are followed by the chain of conditions of lines 352-363.
  match N, S with
  | some n, none => .ok (n, -1)
  | N, S => match S, N with
    | some s, none => .ok (150000, s)
    | S, N => match S, N with
      | some s, some n => .ok (n, s)
      | _, _ => .error .assertionError

end Cgpm2.Cpp
