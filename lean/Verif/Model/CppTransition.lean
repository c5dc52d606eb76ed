import Verif.Model.CppUpdate

/-!
# src/transition_crosscat_cpp.py: what is handed to the C++ engine, and the transitions that use it

The engine is a parameter: a function of what it is given.  It is taken not to change the objects it
is given.  `sorted(set(data))` and the order in which Python enumerates a set of numbers are
parameters too.
-/

namespace Cgpm2.Views
open Cpp CoreDsl

/-- `get_crosscat_cgpm_name_distargs_hypers` (src/transition_crosscat_cpp.py:49-57): the objects whose
names, arguments and hyperparameters are listed.  `zip` of no lists has nothing to unpack. -/
noncomputable def columnBases (x : Crosscat) (outputs : List Var) : Except Err (List Prim) := do
  let bases ← outputs.mapM fun output => cgpmBase (n := 3) (whole x) output
  if outputs = [] then throw .valueError
  pure bases

/-- `distargs['k']` (src/categorical.py:121-122): the other classes are not asked for it. -/
def numCategories : Prim → Nat
  | .categorical c => c.k
  | _ => 0

/-- The dict `M_c` (src/transition_crosscat_cpp.py:97-104). -/
structure Mc where
  nameToIdx : Dict Str Nat
  idxToName : Dict Str Str
  columnMetadata : List ColMeta

/-- `unicode('c%d') % (i,)` (src/transition_crosscat_cpp.py:90, 196). -/
def columnName (o : Var) : Str := 'c' :: decimal o

/-- `_get_crosscat_M_c` (src/transition_crosscat_cpp.py:81-104).  `ordered` is `sorted(set(data))`. -/
noncomputable def getMc (ordered : List Val → List Val) (x : Crosscat)
    (observations : Dict Var (Dict RowId Val)) : Except Err Mc := do
  let outputs := distributionOutputs x
  let bases ← columnBases x outputs
  if observations.length ≠ outputs.length then throw .assertionError
  if ¬ ∀ p ∈ bases, cctype p.kind ≠ .other then throw .assertionError
  let columnNames := outputs.map columnName
  let columnMetadata ← (outputs.zip bases).mapM fun ob => do
    let data ← Dict.getItem observations ob.1
    createMetadata (ordered (Dict.values data)) (cctype ob.2.kind) (numCategories ob.2)
  let positions := List.range outputs.length
  pure ⟨dictZip columnNames positions, dictZip (positions.map fun i : Nat => decimal i) columnNames,
    columnMetadata⟩

/-- `crosscat_value_to_code(M_c, val, i)` (src/transition_crosscat_cpp.py:114-125); the metadata are
only looked up for a value that is not NaN. -/
def codeAt (mc : Mc) (v : Val) (i : Nat) : Except Err Val :=
  match v with
  | .nan => .ok .nan
  | .num q =>
    match mc.columnMetadata[i]? with
    | none => .error .indexError
    | some col => valueToCode col (.num q)

/-- `_get_crosscat_T` (src/transition_crosscat_cpp.py:127-136). -/
noncomputable def getT (x : Crosscat) (mc : Mc) (observations : Dict Var (Dict RowId Val)) :
    Except Err (List (List Val)) := do
  let outputs := distributionOutputs x
  let rowids ← rowidsMapping observations
  rowids.mapM fun row => outputs.zipIdx.mapM fun ci => do
    let data ← Dict.getItem observations ci.1
    let v ← Dict.getItem data row
    codeAt mc v ci.2

/-- An entry of `X_L['column_hypers']` (src/transition_crosscat_cpp.py:168-182); `fixed` is 0. -/
inductive ColHypers
  | normal (mu nu r s : ℝ)
  | categorical (alpha : ℝ) (K : Nat)

/-- `create_hypers` (src/transition_crosscat_cpp.py:166-184). -/
noncomputable def createHypers (mc : Mc) (index : Nat) (p : Prim) : Except Err ColHypers :=
  match cctype p.kind with
  | .normal => do
    let mu ← Dict.getItem p.getHypers "m"
    let nu ← Dict.getItem p.getHypers "nu"
    let r ← Dict.getItem p.getHypers "r"
    let s ← Dict.getItem p.getHypers "s"
    pure (.normal mu nu r s)
  | .categorical =>
    match mc.columnMetadata[index]? with
    | none => .error .indexError
    | some col => do
      if col.codeToValue.length = 0 then throw .assertionError
      let alpha ← Dict.getItem p.getHypers "alpha"
      pure (.categorical alpha col.codeToValue.length)
  | .other => .error .assertionError

/-- `list(np.bincount(l))` (numpy, external).  Of an empty list some versions raise. -/
def bincount (l : List Nat) : List Nat :=
  match l with
  | [] => []
  | _ => (List.range (l.foldr max 0 + 1)).map fun i => l.count i

/-- An entry of `X_L['view_state']` (src/transition_crosscat_cpp.py:202-211).  The sufficient
statistics are empty dicts, one for each column and block. -/
structure ViewState where
  suffstats : List (List Unit)
  columnNames : List Str
  counts : List Nat
  alpha : ℝ

/-- `create_view_state` (src/transition_crosscat_cpp.py:186-211). -/
noncomputable def createViewState (view : View) (rowPartition : List Nat) : Except Err ViewState := do
  let numBlocks := rowPartition.dedup.length
  let cols := ((cgpmI 2).outputs view).tail
  let crp ← (match Node.rowDivide view with
    | none => .error .attributeError
    | some crp => .ok crp : Except Err Prim)
  let alpha ← Dict.getItem crp.getHypers "alpha"
  let counts := bincount rowPartition
  if 0 ∈ counts then throw .assertionError
  pure ⟨cols.map fun _ => List.replicate numBlocks (), cols.map columnName, counts, alpha⟩

/-- The dict `X_L` (src/transition_crosscat_cpp.py:263-268).  The concentration of the partition of
the columns is 1.  `none` for an absent key of `col_ensure`. -/
structure XL where
  columnHypers : List ColHypers
  assignments : List Nat
  counts : List Nat
  viewStates : List ViewState
  dependent : Option (Dict Str (List Nat))
  independent : Option (Dict Str (List Nat))

/-- `{c: i for i, c in enumerate(outputs)}[c]` (src/transition_crosscat_cpp.py:249, 369)
and `{r: i for i, r in rowids_mapping.iteritems()}[r]` (src/transition_crosscat_cpp.py:380).  The
elements of the list are different. -/
def position {α : Type} [DecidableEq α] (outputs : List α) (c : α) : Except Err Nat :=
  if c ∈ outputs then .ok (outputs.idxOf c) else .error .keyError

/-- The dict comprehensions of `col_ensure` (src/transition_crosscat_cpp.py:251-255, 257-261), given
the pairs of a column and its block. -/
def ensure (outputs : List Var) (pairs : List (Var × List Var)) : Except Err (Dict Str (List Nat)) := do
  let entries ← pairs.mapM fun cb => do
    let i ← position outputs cb.1
    let block ← cb.2.mapM (position outputs)
    pure (decimal (i : Nat), block)
  pure (entries.foldl (fun d kv => Dict.set d kv.1 kv.2) [])

/-- The constraints: `Cd`, `Ci`, and the items of `get_scc_from_tuples(Ci)` (external). -/
structure Constraints where
  dependent : List (List Var)
  independent : List (List Var)
  scc : List (Var × List Var)

/-- `_get_crosscat_X_L` (src/transition_crosscat_cpp.py:213-268). -/
noncomputable def getXL (x : Crosscat) (mc : Mc) (xd : List (List Nat)) (con : Constraints) :
    Except Err XL := do
  let outputs := distributionOutputs x
  let bases ← columnBases x outputs
  let columnHypers ← bases.zipIdx.mapM fun pi => createHypers mc pi.2 pi.1
  let assignments ← outputs.mapM fun output => viewIndex x [output]
  let counts := bincount assignments
  if 0 ∈ counts then throw .assertionError
  let viewStates ← (x.cgpms.zip xd).mapM fun vr => createViewState vr.1 vr.2
  let dependent ← (if con.dependent = [] then pure none
    else some <$> ensure outputs (con.dependent.flatMap fun block => block.map fun c => (c, block)))
  let independent ← (if con.independent = [] then pure none else some <$> ensure outputs con.scc)
  pure ⟨columnHypers, assignments, counts, viewStates, dependent, independent⟩

/-- The arguments of `LE.analyze` (src/transition_crosscat_cpp.py:389-400) without `progress`. -/
structure Given where
  mc : Mc
  table : List (List Val)
  xl : XL
  xd : List (List Nat)
  seed : Nat
  kernels : List String
  steps : Int
  maxTime : Int
  cols : List Nat
  rows : List Nat

/-- What is used of the answer of the engine: the assignments of `X_L['column_partition']`, the
length of `X_L['view_state']` and `X_D`. -/
structure Reply where
  assignments : List Int
  viewStates : Nat
  xd : List (List Int)

/-- The engine: what `LE.analyze` (src/transition_crosscat_cpp.py:388-400, external) answers. -/
abbrev Engine := Given → Except Err Reply

/-- What Python and the engine decide: the order of a set of numbers, `sorted(set(data))`, and the
answers of the engine. -/
structure Surroundings where
  unique : List Int → List Int
  ordered : List Val → List Val
  engine : Engine

/-- The arguments of `transition_cpp` (src/transition_crosscat_cpp.py:331-332).  `progress` only
prints. -/
structure CppArgs where
  N : Option Int := none
  S : Option Int := none
  kernels : List String := []
  rowids : Option (List RowId) := none
  cols : Option (List Var) := none
  con : Constraints := ⟨[], [], []⟩
  seed : Nat := 1

/-- What `transition_cpp` gives to the engine (src/transition_crosscat_cpp.py:342-387, 389-401), from
the observations on. -/
noncomputable def given (env : Surroundings) (args : CppArgs) (x : Crosscat) (steps maxTime : Int)
    (cols : List Nat) (observations : Dict Var (Dict RowId Val)) : Except Err Given := do
  let rows ← (match args.rowids with
    | none => .ok []
    | some l => do
      let rowids ← rowidsMapping observations
      l.mapM (position rowids) : Except Err (List Nat))
  let mc ← getMc env.ordered x observations
  let table ← getT x mc observations
  let xd ← getXD (n := 2) x
  let xl ← getXL x mc xd args.con
  pure ⟨mc, table, xl, xd, args.seed, args.kernels, steps, maxTime, cols, rows⟩

/-- The answer, with what is used of `M_c` (src/transition_crosscat_cpp.py:279-282, 404). -/
def Reply.answer (reply : Reply) (mc : Mc) : Answer :=
  ⟨mc.nameToIdx.length, mc.columnMetadata.map ColMeta.modeltype, reply.assignments, reply.viewStates,
    reply.xd⟩

/-- `transition_cpp` (src/transition_crosscat_cpp.py:331-404).  The state is the value of the variable
`crosscat`, which is returned. -/
noncomputable def transitionCpp (env : Surroundings) (args : CppArgs) : Py (Crosscat × Rng) Unit := do
  let (x, _) ← Py.get
  let (steps, maxTime) ← Py.lift (budget args.N args.S)
  let cols ← Py.lift (match args.cols with
    | none => .ok []
    | some l => l.mapM (position (distributionOutputs x)))
  let observations ← Py.lift (crosscatDataset x)
  if observations = [] then pure ()
  else do
    let arguments ← Py.lift (given env args x steps maxTime cols observations)
    let reply ← Py.lift (env.engine arguments)
    updateCrosscat env.unique observations (reply.answer arguments.mc)

namespace Gibbs

/-- The common part of the three kernels (src/transition_crosscat.py:171, 178-181, 184, 189-192,
196-200): a seed is drawn, `self.crosscat` becomes what `transition_cpp` returns, and the
hyperparameters are transitioned.  When `transition_cpp` raises, the model keeps the last value of
its variable `crosscat`. -/
noncomputable def transitionEngine (ord : Orders) (env : Surroundings) (args : CppArgs) :
    Py (Gibbs × Rng) Unit := do
  let seed ← Py.onSnd randint
  onCrosscat (transitionCpp env { args with seed := seed })
  transitionHypersDistributions ord none
  transitionHypersRowDivide ord none

/-- `transition_row_assignments_cpp` (src/transition_crosscat.py:170-181).  `con` is the `Cd` and `Ci`
of the object. -/
noncomputable def transitionRowAssignmentsCpp (ord : Orders) (env : Surroundings) (con : Constraints)
    (N S : Option Int) (rowids : Option (List RowId)) : Py (Gibbs × Rng) Unit :=
  transitionEngine ord env { N := N, S := S, con := con, rowids := rowids, kernels :=
    ["row_partition_hyperparameters", "column_hyperparameters", "row_partition_hyperparameters",
     "row_partition_assignments"] }

/-- `transition_view_assignments_cpp` (src/transition_crosscat.py:183-192). -/
noncomputable def transitionViewAssignmentsCpp (ord : Orders) (env : Surroundings) (con : Constraints)
    (N S : Option Int) (outputs : Option (List Var)) : Py (Gibbs × Rng) Unit :=
  transitionEngine ord env { N := N, S := S, con := con, cols := outputs, kernels :=
    ["column_partition_assignments", "column_partition_hyperparameter"] }

/-- `transition_structure_cpp` (src/transition_crosscat.py:194-200). -/
noncomputable def transitionStructureCpp (ord : Orders) (env : Surroundings) (con : Constraints)
    (N S : Option Int) (outputs : Option (List Var)) : Py (Gibbs × Rng) Unit :=
  transitionEngine ord env { N := N, S := S, con := con, cols := outputs }

end Gibbs
end Cgpm2.Views
