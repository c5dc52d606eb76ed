import Verif.Model.Cgpm

/-!
# src/transition_hypers.py

The functions work on a list of primitives, which are references to objects inside a model; here
the list is the state, and `Model/Walks.lean` says where the objects sit in the model.
-/

namespace Cgpm2

/-- `rng.permutation(l)` (numpy, external): a uniformly drawn entry comes first, then a
permutation of the others; `n` is one less than the length of the list, and the last entry is not
drawn.  numpy shuffles by swaps from the end, which has the same law. -/
noncomputable def permuteN {α : Type} : Nat → List α → Py Rng (List α)
  | 0, l => pure l
  | n + 1, l => fun rng =>
    let (u, rng') := rng.uniform
    let j := ⌊u * (n + 2)⌋.toNat
    match l[j]? with
    | none => (.error .indexError, rng')
    | some x =>
      match permuteN n (l.eraseIdx j) rng' with
      | (.ok xs, rng'') => (.ok (x :: xs), rng'')
      | (.error e, rng'') => (.error e, rng'')

/-- `rng.permutation(l)` (numpy, external). -/
noncomputable def permutation {α : Type} (l : List α) : Py Rng (List α) :=
  permuteN (l.length - 1) l

/-- `cgpm.set_hypers(hypers)` followed by `cgpm.logpdf_score()` (src/transition_hypers.py:30-31,
52-53). -/
noncomputable def setAndScore (hypers : Dict String ℝ) : Py (Prim × Rng) Fl := do
  Py.onFst (Prim.setHypers hypers)
  let (p, _) ← Py.get
  Py.lift p.logpdfScore

/-- The two assertions at the top of the functions (src/transition_hypers.py:17-18, 43-44, 63-64,
70-71); all objects of the model are primitives, so only the second is left.  The list itself may
be empty, then `cgpms[0]` is not evaluated. -/
def sameClass (cgpms : List Prim) : Prop := ∀ p ∈ cgpms, p.kind = (cgpms.map Prim.kind).headD p.kind

instance (cgpms : List Prim) : Decidable (sameClass cgpms) :=
  inferInstanceAs (Decidable (∀ _ ∈ _, _))

/-- The loop over the grid points of one hyperparameter (src/transition_hypers.py:23-35): the new
value of `hyperparams`. -/
noncomputable def transitionHyper (grids : Dict String (List ℝ)) (hyperparams : Dict String ℝ)
    (hyper : String) : Py (List Prim × Rng) (Dict String ℝ) := do
  let grid ← Py.lift (Dict.getItem grids hyper)
  let logps ← Py.mapL (fun gridValue => do
    let scores ← Py.each (setAndScore (Dict.set hyperparams hyper gridValue))
    pure (Fl.sum scores)) grid
  let index ← Py.onSnd (logPflipIdx logps)
  match grid[index]? with
  | none => Py.throw .indexError
  | some gridValue => pure (Dict.set hyperparams hyper gridValue)

/-- The loop over the shuffled hyperparameters (src/transition_hypers.py:22-35). -/
noncomputable def transitionHypersLoop (grids : Dict String (List ℝ)) :
    List String → Dict String ℝ → Py (List Prim × Rng) (Dict String ℝ)
  | [], hyperparams => pure hyperparams
  | hyper :: hypers, hyperparams => do
    let hyperparams ← transitionHyper grids hyperparams hyper
    transitionHypersLoop grids hypers hyperparams

/-- `transition_hypers` (src/transition_hypers.py:15-39). -/
noncomputable def transitionHypers (grids : Dict String (List ℝ)) :
    Py (List Prim × Rng) (Dict String ℝ) := do
  let (cgpms, _) ← Py.get
  Py.assert (sameClass cgpms)
  match cgpms with
  | [] => Py.throw .indexError
  | p :: _ => do
    let shuffled ← Py.onSnd (permutation (Dict.keys p.getHypers))
    let hyperparams ← transitionHypersLoop grids shuffled p.getHypers
    let _ ← Py.each (Py.onFst (Prim.setHypers hyperparams))
    pure hyperparams

/-- `list(itertools.product(*grids.itervalues()))` zipped with the keys
(src/transition_hypers.py:46, 49): every choice of one grid point for each hyperparameter. -/
def hyperCells : Dict String (List ℝ) → List (Dict String ℝ)
  | [] => [[]]
  | (hyper, grid) :: grids =>
    grid.flatMap fun gridValue => (hyperCells grids).map fun cell => (hyper, gridValue) :: cell

/-- `transition_hypers_full` (src/transition_hypers.py:41-59); of the returned triple only the
selected hyperparameters and the scores (the cells are determined by the grids). -/
noncomputable def transitionHypersFull (grids : Dict String (List ℝ)) :
    Py (List Prim × Rng) (Dict String ℝ × List Fl) := do
  let (cgpms, _) ← Py.get
  Py.assert (sameClass cgpms)
  let logps ← Py.mapL (fun proposal => do
    let scores ← Py.each (setAndScore proposal)
    pure (Fl.sum scores)) (hyperCells grids)
  let index ← Py.onSnd (logPflipIdx logps)
  match (hyperCells grids)[index]? with
  | none => Py.throw .indexError
  | some selected => do
    let _ ← Py.each (Py.onFst (Prim.setHypers selected))
    pure (selected, logps)

/-- The non-missing values of a dict of rows (src/transition_hypers.py:65). -/
def nonMissing (data : Dict RowId Val) : List ℚ :=
  data.filterMap fun rv => match rv.2 with
    | .num q => some q
    | .nan => none

/-- `transition_hyper_grids` (src/transition_hypers.py:61-66). -/
noncomputable def transitionHyperGrids (cgpms : List Prim) (nGrid : Nat) :
    Except Err (Dict String (List ℝ)) :=
  if ¬ sameClass cgpms then .error .assertionError
  else match cgpms with
    | [] => .error .indexError
    | p :: _ => .ok (p.constructHyperGrids (cgpms.flatMap fun p => nonMissing p.data) nGrid)

/-- The body of the loop in `set_hypers` (src/transition_hypers.py:73-75). -/
noncomputable def updateHypers (hypers : Dict String ℝ) : Py (Prim × Rng) Unit := do
  let (p, _) ← Py.get
  Py.onFst (Prim.setHypers (Dict.update p.getHypers hypers))

/-- `set_hypers` (src/transition_hypers.py:68-75). -/
noncomputable def setHypersAll (hypers : Dict String ℝ) : Py (List Prim × Rng) Unit := do
  let (cgpms, _) ← Py.get
  Py.assert (sameClass cgpms)
  let _ ← Py.each (updateHypers hypers)
  pure ()

end Cgpm2
