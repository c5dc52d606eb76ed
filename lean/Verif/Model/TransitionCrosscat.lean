import Verif.Model.TransitionViews
import Verif.Model.TransitionRows
import Verif.Model.TransitionHypers
import Verif.Model.Progress

/-!
# src/transition_crosscat.py

The state of a GibbsCrossCat is the CrossCat it holds, the grids, and whether it was given
dependency constraints.  The orders in which Python enumerates sets and dicts are a parameter.  The
kernels that call the C++ engine are in Model/CppTransition.lean.
-/

namespace Cgpm2.Views

/-- The orders in which Python enumerates the sets and dicts of this file: each element once. -/
structure Orders where
  /-- `set(...)` of view indexes (src/transition_crosscat.py:42-45) -/
  views : List Nat → List Nat
  /-- the keys of a dict of columns (src/transition_crosscat.py:54-57, 61-64) -/
  cols : List Var → List Var
  /-- the keys of `kernel_lookup` (src/transition_crosscat.py:123-125) -/
  kernels : List String
  views_nodup : ∀ l, (views l).Nodup
  views_mem : ∀ l i, i ∈ views l ↔ i ∈ l
  cols_nodup : ∀ l, (cols l).Nodup
  cols_mem : ∀ l v, v ∈ cols l ↔ v ∈ l
  kernels_perm : kernels.Perm ["hypers_distributions", "hypers_row_divide", "hypers_column_divide",
    "row_assignments", "view_assignments"]

/-- `get_distribution_outputs` (src/transition_crosscat.py:35-38). -/
noncomputable def distributionOutputs (x : Crosscat) : List Var :=
  x.cgpms.flatMap fun view => ((cgpmI 2).outputs view).tail

/-- `outputs or get_distribution_outputs(crosscat)` (src/transition_crosscat.py:41, 53, 163). -/
noncomputable def orAll (x : Crosscat) (outputs : Option (List Var)) : List Var :=
  match outputs with
  | none => distributionOutputs x
  | some [] => distributionOutputs x
  | some l => l

/-- `get_row_mixture_cgpms` (src/transition_crosscat.py:40-46): the positions of the views. -/
noncomputable def rowMixtureIndexes (ord : Orders) (x : Crosscat) (outputs : Option (List Var)) :
    Except Err (List Nat) := do
  let indexes ← (orAll x outputs).mapM fun output => viewIndex x [output]
  pure (ord.views indexes)

/-- `get_row_divide_outputs` (src/transition_crosscat.py:48-50). -/
noncomputable def rowDivideOutputs (ord : Orders) (x : Crosscat) (outputs : Option (List Var)) :
    Except Err (List Var) := do
  let indexes ← rowMixtureIndexes ord x outputs
  let views ← indexes.mapM fun i => item x.cgpms i
  pure (views.map fun view => ((cgpmI 2).outputs view).headD 0)

/-- `get_cgpms_by_output_index(crosscat, output)` (src/walks.py:24-45) on a Product. -/
noncomputable def columnRefs (x : Crosscat) (output : Var) : Except Err (Refs Crosscat) :=
  Walk.product (cgpmI 2) (cgpmsByOutput 2) x output

/-- `get_distribution_cgpms`, `get_row_divide_cgpms` (src/transition_crosscat.py:52-64), given the
outputs: the keys of the dict, once all entries were found.  The entries are references to
different objects for different outputs, so looking them up again later finds the same. -/
noncomputable def columnKeys (ord : Orders) (x : Crosscat) (outputs : List Var) :
    Except Err (List Var) := do
  let _ ← outputs.mapM fun output => columnRefs x output
  pure (ord.cols outputs)

/-- Call a function of src/transition_hypers.py on the primitives of a column. -/
noncomputable def onCells {α : Type} (output : Var) (f : Py (List Prim × Rng) α) :
    Py (Crosscat × Rng) α := fun st =>
  match columnRefs st.1 output with
  | .error e => (.error e, st)
  | .ok refs =>
    match f (refs.objs, st.2) with
    | (r, (l, g)) => (r, (refs.put l, g))

/-- The checks of `validate_crosscat` on one view (src/transition_crosscat.py:69-74); the components
of the base are primitives by the types of the model. -/
def validView : View → Prop
  | .flexMix m => m.rowDivide.kind = .crp ∧ ∃ p, m.array.base = (.product p : Node (Cgpm 0))
  | _ => False

open Classical in
/-- `validate_crosscat` (src/transition_crosscat.py:66-74). -/
noncomputable def validateCrosscat (x : Crosscat) : Except Err Unit :=
  if ∀ view ∈ x.cgpms, validView view then .ok () else .error .assertionError

/-- A GibbsCrossCat.  The grids are keyed by columns; the key `none` is `'row_divide'`. -/
structure Gibbs where
  crosscat : Crosscat
  /-- `self.Cd or self.Ci` -/
  constrained : Bool
  grids : Dict (Option Var) (Dict String (List ℝ))

namespace Gibbs

/-- A computation on the CrossCat. -/
def onCrosscat {α : Type} (m : Py (Crosscat × Rng) α) : Py (Gibbs × Rng) α := fun st =>
  match m (st.1.crosscat, st.2) with
  | (r, (x, g)) => (r, ({ st.1 with crosscat := x }, g))

/-- `self.crosscat = f(self.crosscat, ...)`: the old CrossCat is changed on the way. -/
def assign (m : Py (Crosscat × Rng) Crosscat) : Py (Gibbs × Rng) Unit := do
  let x ← onCrosscat m
  fun st => (.ok (), ({ st.1 with crosscat := x }, st.2))

/-- `for a in l: f(a)`. -/
def forEach {α : Type} (l : List α) (f : α → Py (Gibbs × Rng) Unit) : Py (Gibbs × Rng) Unit := do
  let _ ← Py.mapL f l
  pure ()

/-- `transition_hyper_grids_row_divide` (src/transition_crosscat.py:146-148). -/
noncomputable def gridsRowDivide : Py (Gibbs × Rng) Unit := do
  let (s, _) ← Py.get
  let view ← Py.lift (item s.crosscat.cgpms 0)
  match Node.rowDivide view with
  | none => Py.throw .attributeError
  | some crp => do
    let grids ← Py.lift (transitionHyperGrids [crp] 30)
    fun st => (.ok (), ({ st.1 with grids := Dict.set st.1.grids none grids }, st.2))

/-- `transition_hyper_grids_distribution` (src/transition_crosscat.py:141-144). -/
noncomputable def gridsDistribution (ord : Orders) (outputs : Option (List Var)) :
    Py (Gibbs × Rng) Unit := do
  let (s, _) ← Py.get
  let keys ← Py.lift (columnKeys ord s.crosscat (orAll s.crosscat outputs))
  forEach keys fun output => do
    let (s, _) ← Py.get
    let refs ← Py.lift (columnRefs s.crosscat output)
    let grids ← Py.lift (transitionHyperGrids refs.objs 30)
    fun st => (.ok (), ({ st.1 with grids := Dict.set st.1.grids (some output) grids }, st.2))

/-- `GibbsCrossCat.__init__` (src/transition_crosscat.py:93-104).  `dependencies` is the outcome of
`validate_crosscat_dependencies` (src/transition_crosscat.py:76-84), whose checks are external. -/
noncomputable def init (ord : Orders) (x : Crosscat) (constrained : Bool)
    (dependencies : Except Err Unit) : Py Rng Gibbs := fun g =>
  match validateCrosscat x with
  | .error e => (.error e, g)
  | .ok _ =>
    match dependencies with
    | .error e => (.error e, g)
    | .ok _ =>
      match (do gridsRowDivide; gridsDistribution ord none : Py (Gibbs × Rng) Unit)
          (⟨x, constrained, []⟩, g) with
      | (.error e, (_, g')) => (.error e, g')
      | (.ok _, (s, g')) => (.ok s, g')

/-- One column of the loops of `transition_hypers_distributions` and `transition_hypers_row_divide`
(src/transition_crosscat.py:130-131, 135-136); `key` is the key of the grids. -/
noncomputable def transitionColumn (key : Option Var) (output : Var) : Py (Gibbs × Rng) Unit := do
  let (s, _) ← Py.get
  let grids ← Py.lift (Dict.getItem s.grids key)
  let _ ← onCrosscat (onCells output (transitionHypers grids))
  pure ()

/-- `transition_hypers_distributions` (src/transition_crosscat.py:128-131). -/
noncomputable def transitionHypersDistributions (ord : Orders) (outputs : Option (List Var)) :
    Py (Gibbs × Rng) Unit := do
  let (s, _) ← Py.get
  let keys ← Py.lift (columnKeys ord s.crosscat (orAll s.crosscat outputs))
  forEach keys fun output => transitionColumn (some output) output

/-- `transition_hypers_row_divide` (src/transition_crosscat.py:133-136). -/
noncomputable def transitionHypersRowDivide (ord : Orders) (outputs : Option (List Var)) :
    Py (Gibbs × Rng) Unit := do
  let (s, _) ← Py.get
  let crps ← Py.lift (rowDivideOutputs ord s.crosscat outputs)
  let keys ← Py.lift (columnKeys ord s.crosscat crps)
  forEach keys fun output => transitionColumn none output

/-- `transition_hypers_column_divide` (src/transition_crosscat.py:138-139). -/
def transitionHypersColumnDivide : Py (Gibbs × Rng) Unit := pure ()

/-- `get_rowids_transition` (src/transition_crosscat.py:86-89). -/
def rowidsTransition (rowids : List RowId) : Py (View × Rng) (List RowId) := do
  let rowidsView ← (getRowids : Py (Node (Cgpm 1) × Rng) (List RowId))
  pure (if rowids = [] then rowidsView else rowidsView.filter fun r => decide (r ∈ rowids))

/-- The loop over the rows of one view (src/transition_crosscat.py:157-159). -/
noncomputable def transitionViewRows (rowids : List RowId) : Py (View × Rng) Unit := do
  let rowidsView ← rowidsTransition rowids
  let shuffled ← Py.onSnd (permutation rowidsView)
  let _ ← Py.mapL (fun rowid => (transitionRows (cgpmI 1) rowid : Py (Node (Cgpm 1) × Rng) Unit)) shuffled
  pure ()

/-- `transition_row_assignments` (src/transition_crosscat.py:153-159). -/
noncomputable def transitionRowAssignments (ord : Orders) (outputs : Option (List Var))
    (rowids : Option (List RowId)) : Py (Gibbs × Rng) Unit := do
  let (s, _) ← Py.get
  let views ← Py.lift (rowMixtureIndexes ord s.crosscat outputs)
  forEach views fun i => onCrosscat (onView i (transitionViewRows (rowids.getD [])))

/-- `transition_view_assignments` (src/transition_crosscat.py:161-166). -/
noncomputable def transitionViews (outputs : Option (List Var)) : Py (Gibbs × Rng) Unit := do
  let (s, _) ← Py.get
  Py.assert (s.constrained = false)
  forEach (orAll s.crosscat outputs) fun output => assign (transitionViewAssignments [output] 1)

/-- `set_hypers_distribution` (src/transition_crosscat.py:204-206). -/
noncomputable def setHypersDistribution (output : Var) (hypers : Dict String ℝ) :
    Py (Gibbs × Rng) Unit :=
  onCrosscat (onCells output (setHypersAll hypers))

/-- `set_hypers_row_divide` (src/transition_crosscat.py:208-210). -/
noncomputable def setHypersRowDivide (ord : Orders) (output : Var) (hypers : Dict String ℝ) :
    Py (Gibbs × Rng) Unit := do
  let (s, _) ← Py.get
  let crps ← Py.lift (rowDivideOutputs ord s.crosscat (some [output]))
  let keys ← Py.lift (columnKeys ord s.crosscat crps)
  match keys with
  | [] => Py.throw .indexError
  | crp :: _ => onCrosscat (onCells crp (setHypersAll hypers))

/-- `set_rowid_component` (src/transition_crosscat.py:212-215); for `identical` see
`setRowidComponent`. -/
noncomputable def setRowid (ord : Orders) (outputs : Option (List Var)) (identical : Bool)
    (rowid0 rowid1 : RowId) : Py (Gibbs × Rng) Unit := do
  let (s, _) ← Py.get
  let views ← Py.lift (rowMixtureIndexes ord s.crosscat outputs)
  forEach views fun i =>
    onCrosscat (onView i (setRowidComponent (cgpmI 1) identical rowid0 rowid1))

/-- `set_view_assignment` (src/transition_crosscat.py:217-219). -/
noncomputable def setView (output0 : Var) (output1 : Option Var) : Py (Gibbs × Rng) Unit := do
  let (s, _) ← Py.get
  Py.assert (s.constrained = false)
  assign (setViewAssignment output0 output1)

/-- `kernel_lookup` (src/transition_crosscat.py:110-122). -/
noncomputable def kernelLookup (ord : Orders) (outputs : Option (List Var))
    (rowids : Option (List RowId)) : Dict String (Py (Gibbs × Rng) Unit) :=
  [("hypers_distributions", transitionHypersDistributions ord outputs),
   ("hypers_row_divide", transitionHypersRowDivide ord outputs),
   ("hypers_column_divide", transitionHypersColumnDivide),
   ("row_assignments", transitionRowAssignments ord outputs rowids),
   ("view_assignments", transitionViews outputs)]

/-- `transition` (src/transition_crosscat.py:108-126): the call from the world `w` ends with the
outcome `r`. -/
def Transition (ord : Orders) (N : Option Int) (S : Option ℝ) (kernels : Option (List String))
    (outputs : Option (List Var)) (rowids : Option (List RowId)) (w : Progress.World (Gibbs × Rng))
    (r : Except Err Unit × Progress.World (Gibbs × Rng)) : Prop :=
  match (kernels.getD ord.kernels).mapM (Dict.getItem (kernelLookup ord outputs rowids)) with
  | .error e => r = (.error e, w)
  | .ok funcs => Progress.TransitionGeneric funcs N S w r

end Gibbs
end Cgpm2.Views
