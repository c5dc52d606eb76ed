import Verif.Model.CppCrosscat

/-!
# src/transition_views.py

A CrossCat is a Product of views (`Cgpm 2`).  The functions return a new Product; the one they are
given is the state, because they also change it: the proposals for existing views share objects
with the views they are made from (`share`).
-/

namespace Cgpm2.Views

/-- A view: a FlexibleRowMixture of Products of primitives, or any CGPM of that depth. -/
abbrev View := Cgpm 2

/-- A CrossCat: a Product of views. -/
abbrev Crosscat := Product View

/-- The Product as a CGPM. -/
def whole (x : Crosscat) : Cgpm 3 := (.product x : Node View)

/-- `get_cgpm_base` (src/transition_views.py:30-34). -/
noncomputable def cgpmBase {n : Nat} (c : Cgpm n) (output : Var) : Except Err Prim := do
  let refs ← cgpmsByOutput n c output
  match refs.objs.filter fun p => p.data.isEmpty with
  | [] => throw .indexError
  | p :: _ => pure p

/-- `get_cgpm_data_logp` (src/transition_views.py:36-39). -/
noncomputable def dataLogp (view : View) (output : Var) : Except Err Fl := do
  let refs ← cgpmsByOutput 2 view output
  let scores ← refs.objs.mapM Prim.logpdfScore
  pure (Fl.sum scores)

/-- `get_cgpm_current_view_index` (src/transition_views.py:41-45). -/
noncomputable def viewIndex (x : Crosscat) (outputs : List Var) : Except Err Nat :=
  let views := outputs.flatMap fun output =>
    (x.cgpms.zipIdx.filter fun vi => decide (output ∈ (cgpmI 2).outputs vi.1)).map Prod.snd
  match views with
  | [] => .error .indexError
  | v :: vs => if ¬ ∀ w ∈ vs, w = v then .error .assertionError else .ok v

/-- The loop of calls of `observe` (src/transition_views.py:49-51, 62-64). -/
noncomputable def observeAll : List (RowId × Dict Var Val) → Py (View × Rng) Unit
  | [] => pure ()
  | (rowid, observation) :: rest => do
    (cgpmI 2).observe rowid observation []
    observeAll rest

/-- The FlexibleRowMixture made by `add_cgpm` has the row divider, the clusters of the rows and the
row index of the array in common with the one it is made from (src/walks.py:103-115), so what
happens to them is seen in both.  The primitives they have in common are not changed by observing
values of the new columns.  Only FlexibleRowMixtures pass `validate_crosscat`. -/
def share (view proposal : View) : View :=
  match view, proposal with
  | .flexMix m, .flexMix p => .flexMix { m with
      rowDivide := p.rowDivide
      rowidToComponent := p.rowidToComponent
      array := { m.array with rowidToIndex := p.array.rowidToIndex } }
  | _, _ => view

/-- `get_cgpm_view_proposal_existing_one` (src/transition_views.py:47-52); the state is the view. -/
noncomputable def proposalExisting (bases : List Prim) (datasets : List (List (RowId × Dict Var Val))) :
    Py (View × Rng) View := fun st =>
  match bases.foldlM (addCgpm 2) st.1 with
  | .error e => (.error e, st)
  | .ok proposal =>
    match observeAll datasets.flatten (proposal, st.2) with
    | (.ok _, (proposal', g)) => (.ok proposal', (share st.1 proposal', g))
    | (.error e, (proposal', g)) => (.error e, (share st.1 proposal', g))

/-- `rng.randint(2**32-1)` (numpy, external): a whole number of `0, …, 2**32-2`. -/
noncomputable def randint : Py Rng Nat := fun rng =>
  let (u, rng') := rng.uniform
  (.ok ⌊u * (2 ^ 32 - 1)⌋.toNat, rng')

/-- `get_cgpm_view_proposal_singleton_one` (src/transition_views.py:54-65). -/
noncomputable def proposalSingleton (bases : List Prim)
    (datasets : List (List (RowId × Dict Var Val))) : Py Rng View := fun rng =>
  match randint rng with
  | (.error e, g) => (.error e, g)
  | (.ok crpOutput, g) =>
    match (do
        let base ← Product.init primI bases
        FlexMix.init (.crp (Crp.init [crpOutput] [] [] [])) (.product base : Node Prim) :
          Except Err (FlexMix (Node Prim))) with
    | .error e => (.error e, g)
    | .ok m =>
      match observeAll datasets.flatten ((.flexMix m : Node (Node Prim)), g) with
      | (.ok _, (view, g')) => (.ok view, g')
      | (.error e, (_, g')) => (.error e, g')

/-- `i is not view_current` (src/transition_views.py:73) compares two ints by identity: CPython keeps
one object for each int up to 256. -/
def sameInt (i j : Nat) : Bool := decide (i = j ∧ i ≤ 256)

/-- One entry of the list of proposals (src/transition_views.py:72-74). -/
noncomputable def proposeOne (bases : List Prim) (datasets : List (List (RowId × Dict Var Val)))
    (current i : Nat) : Py (View × Rng) View :=
  if sameInt i current then do
    let (view, _) ← Py.get
    pure view
  else proposalExisting bases datasets

/-- The list comprehension over the views (src/transition_views.py:71-75), from position `i` on. -/
noncomputable def proposeFrom (bases : List Prim) (datasets : List (List (RowId × Dict Var Val)))
    (current : Nat) : Nat → List View → Rng → Except Err (List View) × (List View × Rng)
  | _, [], g => (.ok [], ([], g))
  | i, view :: views, g =>
    match proposeOne bases datasets current i (view, g) with
    | (.error e, (view', g')) => (.error e, (view' :: views, g'))
    | (.ok p, (view', g')) =>
      match proposeFrom bases datasets current (i + 1) views g' with
      | (.error e, (views', g'')) => (.error e, (view' :: views', g''))
      | (.ok ps, (views', g'')) => (.ok (p :: ps), (view' :: views', g''))

/-- A computation on the list of views of the CrossCat. -/
def onViews {α : Type} (f : List View → Rng → Except Err α × (List View × Rng)) :
    Py (Crosscat × Rng) α := fun st =>
  match f st.1.cgpms st.2 with
  | (r, (views, g)) => (r, (⟨views⟩, g))

/-- A computation on one view of the CrossCat. -/
def onView {α : Type} (i : Nat) (m : Py (View × Rng) α) : Py (Crosscat × Rng) α := fun st =>
  match st.1.cgpms[i]? with
  | none => (.error .indexError, st)
  | some view =>
    match m (view, st.2) with
    | (r, (view', g)) => (r, (⟨st.1.cgpms.set i view'⟩, g))

/-- The base and the data set of each column (src/transition_views.py:69-70, 78-79). -/
noncomputable def basesOf (x : Crosscat) (outputs : List Var) :
    Except Err (List Prim × List (List (RowId × Dict Var Val))) := do
  let bases ← outputs.mapM fun output => cgpmBase (n := 3) (whole x) output
  let datasets ← outputs.mapM fun output => Cpp.getDataset (n := 3) (whole x) output
  pure (bases, datasets)

/-- `get_cgpm_view_proposals_existing` (src/transition_views.py:67-75). -/
noncomputable def proposalsExisting (outputs : List Var) : Py (Crosscat × Rng) (List View) := do
  let (x, _) ← Py.get
  let current ← Py.lift (viewIndex x outputs)
  let (bases, datasets) ← Py.lift (basesOf x outputs)
  onViews (proposeFrom bases datasets current 0)

/-- The list comprehension of src/transition_views.py:80-84. -/
noncomputable def singletons (bases : List Prim) (datasets : List (List (RowId × Dict Var Val))) :
    Nat → Py Rng (List View)
  | 0 => pure []
  | aux + 1 => do
    let view ← proposalSingleton bases datasets
    let views ← singletons bases datasets aux
    pure (view :: views)

/-- `get_cgpm_view_proposals_singleton` (src/transition_views.py:77-84). -/
noncomputable def proposalsSingleton (outputs : List Var) (aux : Nat) :
    Py (Crosscat × Rng) (List View) := do
  let (x, _) ← Py.get
  let (bases, datasets) ← Py.lift (basesOf x outputs)
  Py.onSnd (singletons bases datasets aux)

/-- `get_cgpm_view_proposals` (src/transition_views.py:86-90). -/
noncomputable def proposals (outputs : List Var) (aux : Nat) : Py (Crosscat × Rng) (List View) := do
  let existing ← proposalsExisting outputs
  let singleton ← proposalsSingleton outputs aux
  pure (existing ++ singleton)

/-- `crosscat.cgpms[i]`, `view_proposals[i]`. -/
def item (l : List View) (i : Nat) : Except Err View :=
  match l[i]? with
  | none => .error .indexError
  | some v => .ok v

/-- `remove_cgpm(crosscat, view.outputs[0])` (src/transition_views.py:111, 121, 147, 151, 166). -/
noncomputable def dropView (x : Crosscat) (view : View) : Except Err Crosscat :=
  Walk.productRemove (cgpmI 2) x (((cgpmI 2).outputs view).headD 0)

/-- `add_cgpm(crosscat, view)` (src/transition_views.py:113, 118, 122, 149, 152, 168, 170). -/
noncomputable def putView (x : Crosscat) (view : View) : Except Err Crosscat :=
  Walk.productAdd (cgpmI 2) x view

/-- Put the view without the moved columns back, if it still has columns
(src/transition_views.py:112-113, 148-149, 167-168). -/
noncomputable def restore (x : Crosscat) (view : View) : Except Err Crosscat :=
  if 1 < ((cgpmI 2).outputs view).length then putView x view else pure x

/-- The end of `transition_cgpm_view_assigments` (src/transition_views.py:101-123), once a proposal
is selected. -/
noncomputable def settle (x : Crosscat) (outputs : List Var) (proposals : List View)
    (current sampled : Nat) : Except Err Crosscat := do
  let viewCurrent ← item x.cgpms current
  let viewSampled ← item proposals sampled
  if current = sampled then pure x
  else do
    let viewCurrent' ← outputs.foldlM (removeCgpm 2) viewCurrent
    let x1 ← dropView x viewCurrent
    let x2 ← restore x1 viewCurrent'
    if x.cgpms.length ≤ sampled then putView x2 viewSampled
    else do
      let original ← item x.cgpms sampled
      if ((cgpmI 2).outputs original).headD 0 ≠ ((cgpmI 2).outputs viewSampled).headD 0 then
        throw .assertionError
      let x3 ← dropView x2 original
      putView x3 viewSampled

/-- `transition_cgpm_view_assigments` (src/transition_views.py:92-123). -/
noncomputable def transitionViewAssignments (outputs : List Var) (aux : Nat) :
    Py (Crosscat × Rng) Crosscat := do
  let proposals ← proposals outputs aux
  let logps ← Py.lift (proposals.mapM fun view => do
    let l ← outputs.mapM fun output => dataLogp view output
    pure (Fl.sum l))
  let (x, _) ← Py.get
  let current ← Py.lift (viewIndex x outputs)
  let sampled ← Py.onSnd (logPflipIdx logps)
  Py.lift (settle x outputs proposals current sampled)

/-- `set_cgpm_view_assignment_existing` (src/transition_views.py:132-153). -/
noncomputable def setExisting (output0 output1 : Var) : Py (Crosscat × Rng) Crosscat := do
  let (x, _) ← Py.get
  let idx0 ← Py.lift (viewIndex x [output0])
  let idx1 ← Py.lift (viewIndex x [output1])
  if idx0 = idx1 then pure x
  else do
    let view0 ← Py.lift (item x.cgpms idx0)
    let view0' ← Py.lift (removeCgpm 2 view0 output0)
    let view1 ← Py.lift (item x.cgpms idx1)
    let (bases, datasets) ← Py.lift (basesOf x [output0])
    let view1' ← onView idx1 (proposalExisting bases datasets)
    let (x, _) ← Py.get
    let x1 ← Py.lift (dropView x view0)
    let x2 ← Py.lift (restore x1 view0')
    let x3 ← Py.lift (dropView x2 view1)
    Py.lift (putView x3 view1')

/-- `set_cgpm_view_assignment_singleton` (src/transition_views.py:155-171). -/
noncomputable def setSingleton (output0 : Var) : Py (Crosscat × Rng) Crosscat := do
  let (x, _) ← Py.get
  let idx0 ← Py.lift (viewIndex x [output0])
  let view0 ← Py.lift (item x.cgpms idx0)
  let view0' ← Py.lift (removeCgpm 2 view0 output0)
  let (bases, datasets) ← Py.lift (basesOf x [output0])
  let singleton ← Py.onSnd (proposalSingleton bases datasets)
  let x1 ← Py.lift (dropView x view0)
  let x2 ← Py.lift (restore x1 view0')
  Py.lift (putView x2 singleton)

/-- `set_cgpm_view_assignment` (src/transition_views.py:125-130). -/
noncomputable def setViewAssignment (output0 : Var) (output1 : Option Var) :
    Py (Crosscat × Rng) Crosscat :=
  match output1 with
  | some o => setExisting output0 o
  | none => setSingleton output0

end Cgpm2.Views
