import Verif.Model.TransitionRows

/-!
# src/crosscat_ensemble.py

A chain is an object with its own random state (every chain is made with its own seed, lines
67 and 183-185).  `parallel_map` (external) hands every argument to a worker process, which
works on a copy; what comes back are the returned values, in the order of the arguments.
-/

namespace Cgpm2.Ensemble
variable {S : Type}

/-- An argument of a method. -/
inductive Arg
  | none
  | row (r : Int)
  | dict (d : Dict Var Val)
  | vars (vs : List Var)
  | count (n : Nat)

/-- `zip(*lists)` (external): the tuples of elements at the same position, up to the shortest. -/
def zipStar {α : Type} : List (List α) → List (List α)
  | [] => []
  | [l] => l.map fun a => [a]
  | l :: ls => List.zipWith (· :: ·) l (zipStar ls)

/-- `make_args_list` (src/crosscat_ensemble.py:112-123). -/
def makeArgsList (args : List (Option (List Arg))) : Except Err (List (List Arg)) :=
  let Ns := args.filterMap fun a => a.map List.length
  match Ns with
  | [] => .error .indexError
  | N :: _ =>
    if ¬ ∀ n ∈ Ns, n = N then .error .assertionError
    else .ok (zipStar (args.map fun a => a.getD (List.replicate N .none)))

/-- A row id given as an argument. -/
def rowArg : Arg → Except Err RowId
  | .none => .ok none
  | .row r => .ok (some r)
  | _ => .error .typeError

/-- A dict given as an argument: None stands for the empty dict. -/
def dictArg : Arg → Except Err (Dict Var Val)
  | .none => .ok []
  | .dict d => .ok d
  | _ => .error .typeError

/-- A list of variables given as an argument. -/
def varsArg : Arg → Except Err (List Var)
  | .vars vs => .ok vs
  | _ => .error .typeError

/-- The number of samples given as an argument. -/
def countArg : Arg → Except Err (Option Nat)
  | .none => .ok none
  | .count n => .ok (some n)
  | _ => .error .typeError

/-- `getattr(crosscat, 'observe')(*args)` (src/crosscat_ensemble.py:84, 90). -/
def callObserve (I : Iface S) : List Arg → Py (S × Rng) Unit
  | [r, o, i] => do
    let rowid ← Py.lift (rowArg r)
    let observation ← Py.lift (dictArg o)
    let inputs ← Py.lift (dictArg i)
    I.observe rowid observation inputs
  | _ => Py.throw .typeError

/-- `getattr(crosscat, 'unobserve')(*args)` (src/crosscat_ensemble.py:84, 90). -/
def callUnobserve (I : Iface S) : List Arg → Py (S × Rng) (Dict Var Val × Dict Var Val)
  | [r] => do
    let rowid ← Py.lift (rowArg r)
    I.unobserve rowid
  | _ => Py.throw .typeError

/-- `getattr(crosscat, 'logpdf')(*args)` (src/crosscat_ensemble.py:94, 98). -/
def callLogpdf (I : Iface S) : List Arg → Py (S × Rng) Fl
  | [r, t, c, i] => do
    let rowid ← Py.lift (rowArg r)
    let targets ← Py.lift (dictArg t)
    let constraints ← Py.lift (dictArg c)
    let inputs ← Py.lift (dictArg i)
    I.logpdf rowid targets constraints inputs
  | _ => Py.throw .typeError

/-- `getattr(crosscat, 'simulate')(*args)` (src/crosscat_ensemble.py:94, 98). -/
def callSimulate (I : Iface S) : List Arg → Py (S × Rng) SimOut
  | [r, t, c, i, n] => do
    let rowid ← Py.lift (rowArg r)
    let targets ← Py.lift (varsArg t)
    let constraints ← Py.lift (dictArg c)
    let inputs ← Py.lift (dictArg i)
    let N ← Py.lift (countArg n)
    I.simulate rowid targets constraints inputs N
  | _ => Py.throw .typeError

/-- `_modify` (src/crosscat_ensemble.py:83-85): the returned value is the object itself. -/
def modify {α : Type} (call : List Arg → Py (S × Rng) α) (args : List Arg) :
    Py (S × Rng) (S × Rng) := do
  let _ ← call args
  Py.get

/-- The loop over argument tuples (src/crosscat_ensemble.py:89-90). -/
def callEach {α : Type} (call : List Arg → Py (S × Rng) α) : List (List Arg) → Py (S × Rng) Unit
  | [] => pure ()
  | args :: rest => do
    let _ ← call args
    callEach call rest

/-- `_modify_bulk` (src/crosscat_ensemble.py:87-91). -/
def modifyBulk {α : Type} (call : List Arg → Py (S × Rng) α) (args : List (Option (List Arg))) :
    Py (S × Rng) (S × Rng) := do
  let argsList ← Py.lift (makeArgsList args)
  callEach call argsList
  Py.get

/-- `_evaluate` (src/crosscat_ensemble.py:93-94). -/
def evaluate {α : Type} (call : List Arg → Py (S × Rng) α) (args : List Arg) : Py (S × Rng) α :=
  call args

/-- The list of results (src/crosscat_ensemble.py:98). -/
def collectEach {α : Type} (call : List Arg → Py (S × Rng) α) :
    List (List Arg) → Py (S × Rng) (List α)
  | [] => pure []
  | args :: rest => do
    let a ← call args
    let as ← collectEach call rest
    pure (a :: as)

/-- `_evaluate_bulk` (src/crosscat_ensemble.py:96-98). -/
def evaluateBulk {α : Type} (call : List Arg → Py (S × Rng) α) (args : List (Option (List Arg))) :
    Py (S × Rng) (List α) := do
  let argsList ← Py.lift (makeArgsList args)
  collectEach call argsList

/-- `_alter` (src/crosscat_ensemble.py:107-110).  A function takes the object and returns the new
one. -/
def alter (funcs : List (S × Rng → Except Err (S × Rng))) : Py (S × Rng) (S × Rng) := fun c =>
  match funcs.foldlM (fun c f => f c) c with
  | .ok c' => (.ok c', c')
  | .error e => (.error e, c)

/-- `map(func, args)`, one job per chain: the objects are changed in place, and an exception in
one leaves the following ones alone (src/crosscat_ensemble.py:161). -/
def mapHere {α : Type} : List (Py (S × Rng) α) → Py (List (S × Rng)) (List α)
  | f :: fs, c :: cs =>
    match f c with
    | (.error e, c') => (.error e, c' :: cs)
    | (.ok a, c') =>
      match mapHere fs cs with
      | (.error e, cs') => (.error e, c' :: cs')
      | (.ok as, cs') => (.ok (a :: as), c' :: cs')
  | _, cs => (.ok [], cs)

/-- `parallel_map(func, args)`, one job per chain: copies are changed
(src/crosscat_ensemble.py:164). -/
def mapThere {α : Type} (fs : List (Py (S × Rng) α)) : Py (List (S × Rng)) (List α) := fun cs =>
  ((fs.zip cs).mapM fun fc => (fc.1 fc.2).1, cs)

/-- `mapper` (src/crosscat_ensemble.py:159-164). -/
def mapper {α : Type} (multiprocess : Bool) (fs : List (Py (S × Rng) α)) :
    Py (List (S × Rng)) (List α) :=
  if ¬ multiprocess then mapHere fs else mapThere fs

/-- The same job for every chain, as in src/crosscat_ensemble.py:190-192. -/
def toAll {α : Type} (multiprocess : Bool) (f : Py (S × Rng) α) : Py (List (S × Rng)) (List α) :=
  fun cs => mapper multiprocess (cs.map fun _ => f) cs

/-- `self.cgpms = mapper(func, args, multiprocess)` (src/crosscat_ensemble.py:193, 207). -/
def replace (multiprocess : Bool) (f : Py (S × Rng) (S × Rng)) : Py (List (S × Rng)) Unit := do
  let cgpms ← toAll multiprocess f
  fun _ => (.ok (), cgpms)

/-- A row id handed on. -/
def ofRow : RowId → Arg
  | none => .none
  | some r => .row r

variable (I : Iface S)

/-- `CrossCatEnsemble.observe` (src/crosscat_ensemble.py:189-196). -/
def observe (rowid : RowId) (observation : Dict Var Val) (inputs : Option (Dict Var Val))
    (multiprocess : Bool) : Py (List (S × Rng)) Unit :=
  replace multiprocess (modify (callObserve I) [ofRow rowid, .dict observation,
    (inputs.map .dict).getD .none])

/-- `CrossCatEnsemble.observe_bulk` (src/crosscat_ensemble.py:189-193, 198-199). -/
def observeBulk (rowids : List RowId) (observations : List (Dict Var Val))
    (inputs : Option (List (Dict Var Val))) (multiprocess : Bool) : Py (List (S × Rng)) Unit :=
  replace multiprocess (modifyBulk (callObserve I) [some (rowids.map ofRow),
    some (observations.map .dict), inputs.map fun l => l.map .dict])

/-- `CrossCatEnsemble.unobserve` (src/crosscat_ensemble.py:203-210). -/
def unobserve (rowid : RowId) (multiprocess : Bool) : Py (List (S × Rng)) Unit :=
  replace multiprocess (modify (callUnobserve I) [ofRow rowid])

/-- `CrossCatEnsemble.unobserve_bulk` (src/crosscat_ensemble.py:203-207, 212-213). -/
def unobserveBulk (rowids : List RowId) (multiprocess : Bool) : Py (List (S × Rng)) Unit :=
  replace multiprocess (modifyBulk (callUnobserve I) [some (rowids.map ofRow)])

/-- `CrossCatEnsemble.logpdf_score` (src/crosscat_ensemble.py:217-222). -/
def logpdfScore (multiprocess : Bool) : Py (List (S × Rng)) (List Fl) :=
  toAll multiprocess fun c => (I.logpdfScore c.1, c)

/-- `CrossCatEnsemble.logpdf` (src/crosscat_ensemble.py:226-237). -/
def logpdf (rowid : RowId) (targets : Dict Var Val) (constraints inputs : Option (Dict Var Val))
    (multiprocess : Bool) : Py (List (S × Rng)) (List Fl) :=
  toAll multiprocess (evaluate (callLogpdf I) [ofRow rowid, .dict targets,
    (constraints.map .dict).getD .none, (inputs.map .dict).getD .none])

/-- `CrossCatEnsemble.logpdf_bulk` (src/crosscat_ensemble.py:226-232, 239-242). -/
def logpdfBulk (rowids : List RowId) (targets : List (Dict Var Val))
    (constraints inputs : Option (List (Dict Var Val))) (multiprocess : Bool) :
    Py (List (S × Rng)) (List (List Fl)) :=
  toAll multiprocess (evaluateBulk (callLogpdf I) [some (rowids.map ofRow),
    some (targets.map .dict), constraints.map fun l => l.map .dict, inputs.map fun l => l.map .dict])

/-- `CrossCatEnsemble.simulate` (src/crosscat_ensemble.py:246-257). -/
def simulate (rowid : RowId) (targets : List Var) (constraints inputs : Option (Dict Var Val))
    (N : Option Nat) (multiprocess : Bool) : Py (List (S × Rng)) (List SimOut) :=
  toAll multiprocess (evaluate (callSimulate I) [ofRow rowid, .vars targets,
    (constraints.map .dict).getD .none, (inputs.map .dict).getD .none, (N.map .count).getD .none])

/-- `CrossCatEnsemble.simulate_bulk` (src/crosscat_ensemble.py:246-252, 259-262). -/
def simulateBulk (rowids : List RowId) (targets : List (List Var))
    (constraints inputs : Option (List (Dict Var Val))) (Ns : Option (List Nat))
    (multiprocess : Bool) : Py (List (S × Rng)) (List (List SimOut)) :=
  toAll multiprocess (evaluateBulk (callSimulate I) [some (rowids.map ofRow),
    some (targets.map .vars), constraints.map fun l => l.map .dict, inputs.map fun l => l.map .dict,
    Ns.map fun l => l.map .count])

/-- `_process_heterogenous_args` (src/crosscat_ensemble.py:266-269). -/
def perChain {α : Type} (chains : Nat) (args : Option (List α)) : Except Err (List (Option α)) :=
  match args with
  | none => .ok (List.replicate chains none)
  | some l => if l.length = chains then .ok (l.map some) else .error .assertionError

/-- `CrossCatEnsemble.logpdf_heterogeneous` (src/crosscat_ensemble.py:295-311). -/
def logpdfHeterogeneous (rowid : Option (List Int)) (targets constraints inputs :
    Option (List (Dict Var Val))) (multiprocess : Bool) : Py (List (S × Rng)) (List Fl) := fun cs =>
  match (do
    let rs ← perChain cs.length rowid
    let ts ← perChain cs.length targets
    let ks ← perChain cs.length constraints
    let is ← perChain cs.length inputs
    pure ((List.range cs.length).map fun i =>
      evaluate (callLogpdf I) [ofRow (rs.getD i none), ((ts.getD i none).map .dict).getD .none,
        ((ks.getD i none).map .dict).getD .none, ((is.getD i none).map .dict).getD .none])
    : Except Err _) with
  | .error e => (.error e, cs)
  | .ok jobs => mapper multiprocess jobs cs

/-- `CrossCatEnsemble.transition` (src/crosscat_ensemble.py:329-332). -/
def transition (program : S × Rng → Except Err (S × Rng)) (multiprocess : Bool) :
    Py (List (S × Rng)) Unit :=
  replace multiprocess (alter [program])

/-! ## Co-assignment -/

/-- `output_to_index[output]` (src/product.py:29-30): the last component with the output.  By
validation (src/product.py:22) there is just one. -/
def outputToIndex (crosscat : Product S) (output : Var) : Except Err Nat :=
  match (crosscat.cgpms.zipIdx.filter fun ci => decide (output ∈ I.outputs ci.1)).getLast? with
  | some ci => .ok ci.2
  | none => .error .keyError

/-- `same_assignment_column` (src/crosscat_ensemble.py:127-130). -/
def sameColumn (crosscat : Product S) (output0 output1 : Var) : Except Err Bool := do
  let i0 ← outputToIndex I crosscat output0
  let i1 ← outputToIndex I crosscat output1
  pure (i0 == i1)

/-- `view.cgpm_row_divide.data` (src/crosscat_ensemble.py:135-136). -/
def divideData (view : Node S) : Except Err (Dict RowId Val) :=
  match view.rowDivide with
  | some d => .ok d.data
  | none => .error .attributeError

/-- `crosscat.cgpms[i]` (src/crosscat_ensemble.py:134). -/
def viewAt (crosscat : Product S) (i : Nat) : Except Err S :=
  match crosscat.cgpms[i]? with
  | some c => .ok c
  | none => .error .indexError

/-- `same_assignment_row` (src/crosscat_ensemble.py:132-137). -/
def sameRow (I : Iface (Node S)) (crosscat : Product (Node S)) (output : Var) (row0 row1 : RowId) :
    Except Err Bool := do
  let i ← outputToIndex I crosscat output
  let view ← viewAt crosscat i
  let data ← divideData view
  let c0 ← Dict.getItem data row0
  let c1 ← Dict.getItem data row1
  pure (c0 == c1)

/-- `itertools.combinations(l, 2)` (external). -/
def pairs {α : Type} : List α → List (α × α)
  | [] => []
  | a :: l => (l.map fun b => (a, b)) ++ pairs l

/-- A square array. -/
structure Mat where
  size : Nat
  entry : Nat → Nat → ℚ

/-- `np.eye(n)` (external). -/
def Mat.eye (n : Nat) : Mat := ⟨n, fun i j => if i = j then 1 else 0⟩

/-- `matrix[i, j] = x`. -/
def Mat.set (m : Mat) (i j : Nat) (x : ℚ) : Mat :=
  { m with entry := fun a b => if a = i ∧ b = j then x else m.entry a b }

/-- The loops of `same_assignment_column_pairwise` and `same_assignment_row_pairwise`
(src/crosscat_ensemble.py:140-145 and 150-155).  The dict of line 141 numbers the elements. -/
def fillPairs {α : Type} [DecidableEq α] (same : α → α → Except Err Bool) (l : List α) :
    Except Err Mat := do
  let reindex : Dict α Nat := l.zipIdx.foldl (fun d ai => Dict.set d ai.1 ai.2) []
  (pairs l).foldlM (fun m ij => do
    let d ← same ij.1 ij.2
    let i ← Dict.getItem reindex ij.1
    let j ← Dict.getItem reindex ij.2
    let x : ℚ := if d then 1 else 0
    -- Chained assignment: the leftmost target first.
    pure ((m.set i j x).set j i x)) (Mat.eye l.length)

/-- `same_assignment_column_pairwise` (src/crosscat_ensemble.py:139-145). -/
def sameColumnPairwise (crosscat : Product S) (outputs : List Var) : Except Err Mat :=
  fillPairs (sameColumn I crosscat) outputs

/-- `same_assignment_row_pairwise` (src/crosscat_ensemble.py:147-155). -/
def sameRowPairwise (I : Iface (Node S)) (crosscat : Product (Node S)) (output : Var) :
    Except Err Mat := do
  let i ← outputToIndex I crosscat output
  let view ← viewAt crosscat i
  -- get_rowids (src/transition_rows.py:26-30).
  let data ← divideData view
  fillPairs (sameRow I crosscat output) (Dict.keys data)

end Cgpm2.Ensemble
