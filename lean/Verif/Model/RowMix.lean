import Verif.Model.Prim
import Verif.Model.Arrays

/-!
# src/finite_rowmix.py and src/flexible_rowmix.py

`FlexibleRowMixture` inherits every query and update from `FiniteRowMixture`; the two differ in
the constructor and in the class of the component array.  The model is generic in the class `A`
of the component array, whose interface is `AI`.

The row divider is one of the primitive classes: only classes with a `support` method can
divide rows, and in the repository these are CRP, Categorical and Bernoulli.
-/

namespace Cgpm2

/-- Attributes of the row mixtures (src/finite_rowmix.py:29-42, src/flexible_rowmix.py:20-34).
`outputs_z`, `inputs_z`, `outputs_x`, `inputs_x`, `outputs`, `inputs`, `indexer` are functions
of the divider and the array. -/
structure RowMix (A : Type) where
  rowDivide : Prim
  array : A
  rowidToComponent : Dict RowId Val

/-- Draws of `log_pflip(logps, array, size=n, rng)` (external): indices of `n` independent
draws. -/
noncomputable def logPflipMany (logps : List Fl) : Nat → Py Rng (List Nat)
  | 0 => pure []
  | n + 1 => do
    let i ← logPflipIdx logps
    let is ← logPflipMany logps n
    pure (i :: is)

/-- `{z: n for z, n in enumerate(np.bincount(zs)) if n}` as listed by `iteritems()`, in
increasing order of `z` (CPython's order for small non-negative integer keys);
`np.bincount` raises ValueError on negative numbers and is not called on an empty list. -/
def bincount (zs : List Int) : Except Err (List (Int × Nat)) :=
  if zs.any (fun z => decide (z < 0)) then .error .valueError
  else .ok (((List.range (zs.foldl max 0 + 1).toNat).map fun z : Nat =>
    ((z : Int), zs.count (z : Int))).filter fun zn => zn.2 ≠ 0)

namespace RowMix
variable {A : Type} (AI : Iface A)

/-- `self.indexer` (src/finite_rowmix.py:38); the constructor asserts that the divider has
exactly one output. -/
def indexer (m : RowMix A) : Var := m.rowDivide.outputs.headD 0

/-- `self.inputs_z` (src/finite_rowmix.py:33). -/
def inputsZ (m : RowMix A) : List Var := m.rowDivide.inputs

/-- `self.outputs_x` (src/finite_rowmix.py:34): the outputs of the components. -/
def outputsX (m : RowMix A) : List Var := AI.outputs m.array

/-- `self.inputs_x` (src/finite_rowmix.py:35): the inputs of the components, which are those of
the array without its indexer (src/finite_array.py:20, src/flexible_array.py:22). -/
def inputsX (m : RowMix A) : List Var := (AI.inputs m.array).tail

/-- `self.outputs` (src/finite_rowmix.py:36). -/
def outputs (m : RowMix A) : List Var := m.rowDivide.outputs ++ m.outputsX AI

/-- `self.inputs` (src/finite_rowmix.py:37). -/
def inputs (m : RowMix A) : List Var := m.inputsZ ++ m.inputsX AI

/-- A method call on `self.cgpm_components_array`. -/
def onArray {α : Type} (m : Py (A × Rng) α) : Py (RowMix A × Rng) α :=
  Py.onAttr RowMix.array (fun s a => { s with array := a }) m

/-- A method call on `self.cgpm_row_divide`. -/
def onDivide {α : Type} (m : Py Prim α) : Py (RowMix A × Rng) α :=
  Py.onAttr RowMix.rowDivide (fun s d => { s with rowDivide := d }) (Py.onFst m)

/-- `_logpdf_one` (src/finite_rowmix.py:251-264).  Line 257 selects the component's inputs by
`outputs_x` where `inputs_x` must be meant. -/
noncomputable def logpdfOne (rowid : RowId) (targets constraints inputs : Dict Var Val)
    (component : Val) : Py (RowMix A × Rng) Fl := do
  let (m, _) ← Py.get
  let targetsX := getIntersection (m.outputsX AI) targets
  if targetsX = [] then pure 0
  else do
    let constraintsX := getIntersection (m.outputsX AI) constraints
    let inputsX := getIntersection (m.outputsX AI) inputs
    let inputsArr := merged inputsX [(m.indexer, component)]
    onArray (AI.logpdf rowid targetsX constraintsX inputsArr)

/-- The last branch of `logpdf` (src/finite_rowmix.py:129-164). -/
noncomputable def logpdfMarginal (rowid : RowId) (targets constraints inputs : Dict Var Val) :
    Py (RowMix A × Rng) Fl := do
  let (m, _) ← Py.get
  let inputsZ := getIntersection m.inputsZ inputs
  let zSupport ← Py.lift m.rowDivide.support
  let lpZPrior ← Py.lift (zSupport.mapM fun (z : Int) =>
    m.rowDivide.logpdf rowid [(m.indexer, .num z)] [] inputsZ)
  let lpConstraintsLikelihood ← Py.mapL
    (fun z : Int => logpdfOne AI rowid constraints [] inputs (.num z)) zSupport
  let lpZConstraints := List.zipWith (· + ·) lpZPrior lpConstraintsLikelihood
  let lpZPosterior := Fl.logNormalize lpZConstraints
  let lpTargetsLikelihood ← Py.mapL
    (fun z : Int => logpdfOne AI rowid targets constraints inputs (.num z)) zSupport
  let lpJoint := List.zipWith (· + ·) lpTargetsLikelihood lpZPosterior
  pure (Fl.logsumexp lpJoint)

/-- `logpdf` (src/finite_rowmix.py:63-164), with the recursive call of line 94 as a
parameter. -/
noncomputable def logpdfWith (recur : Dict Var Val → Py (RowMix A × Rng) Fl) (rowid : RowId)
    (targets constraints inputs : Dict Var Val) : Py (RowMix A × Rng) Fl := do
  let (m, _) ← Py.get
  match Dict.get? m.rowidToComponent rowid with
  | some z => do
    Py.assert (constraints = [] ∨ Dict.get? constraints m.indexer = none)
    logpdfOne AI rowid targets constraints inputs z
  | none =>
    match Dict.get? targets m.indexer with
    | some z => do
      let inputsZ := getIntersection m.inputsZ inputs
      let lpZ ← Py.lift (m.rowDivide.logpdf rowid [(m.indexer, z)] [] inputsZ)
      let targetsJoint := merged targets constraints
      let lpXJoint ← logpdfOne AI rowid targetsJoint [] inputs z
      let lpXConstraints ← if constraints ≠ [] then recur constraints else pure 0
      pure ((lpZ + lpXJoint) - lpXConstraints)
    | none =>
      match Dict.get? constraints m.indexer with
      | some z => do
        let zSupport ← Py.lift m.rowDivide.support
        if ¬ ∃ k ∈ zSupport, z = .num ((k : Int) : ℚ) then Py.throw .valueError
        else do
          let targetsJoint := merged targets constraints
          let lpXJoint ← logpdfOne AI rowid targetsJoint [] inputs z
          let lpXConstraints ← logpdfOne AI rowid constraints [] inputs z
          pure (lpXJoint - lpXConstraints)
      | none => logpdfMarginal AI rowid targets constraints inputs

/-- `logpdf` without constraints; the recursive call is not reached. -/
noncomputable def logpdf0 (rowid : RowId) (targets inputs : Dict Var Val) :
    Py (RowMix A × Rng) Fl :=
  logpdfWith AI (fun _ => Py.throw .typeError) rowid targets [] inputs

/-- `logpdf` (src/finite_rowmix.py:63-164). -/
noncomputable def logpdf (rowid : RowId) (targets constraints inputs : Dict Var Val) :
    Py (RowMix A × Rng) Fl :=
  logpdfWith AI (fun cs => logpdf0 AI rowid cs inputs) rowid targets constraints inputs

/-- `_simulate_one` (src/finite_rowmix.py:228-249).  Line 233 selects the component's inputs by
`outputs_x` where `inputs_x` must be meant.  The last two cases of the final match are those
where the array answered with a list for `N=None` or a dict for a given `N`: item assignment
then fails. -/
def simulateOne (rowid : RowId) (targets : List Var) (constraints inputs : Dict Var Val)
    (N : Option Nat) (component : Val) : Py (RowMix A × Rng) SimOut := do
  let (m, _) ← Py.get
  let targetsX := getIntersectionL (m.outputsX AI) targets
  let samples ←
    if targetsX ≠ [] then do
      let constraintsX := getIntersection (m.outputsX AI) constraints
      let inputsX := getIntersection (m.outputsX AI) inputs
      let inputsArr := merged inputsX [(m.indexer, component)]
      onArray (AI.simulate rowid targetsX constraintsX inputsArr N)
    else pure (match N with
      | none => .one []
      | some n => .many (List.replicate n []))
  if m.indexer ∈ targets then
    match N, samples with
    | none, .one s => pure (.one (Dict.set s m.indexer component))
    | some _, .many l => pure (.many (l.map fun s => Dict.set s m.indexer component))
    | none, .many _ => Py.throw .typeError
    | some _, .one _ => Py.throw .typeError
  else pure samples

/-- `lchain(*samples)` of lists of samples. -/
def chainSamples : List SimOut → Except Err (List (Dict Var Val))
  | [] => .ok []
  | .many l :: rest => do
    let ls ← chainSamples rest
    pure (l ++ ls)
  | .one _ :: _ => .error .typeError

/-- The last part of `simulate` (src/finite_rowmix.py:54-61): draw the clusters from their
posterior, then simulate each cluster's share. -/
noncomputable def simulateFresh (rowid : RowId) (targets : List Var)
    (constraints inputs : Dict Var Val) (N : Option Nat) : Py (RowMix A × Rng) SimOut := do
  let (m, _) ← Py.get
  let zSupport ← Py.lift m.rowDivide.support
  let zWeights ← Py.mapL
    (fun z : Int => logpdf AI rowid [(m.indexer, .num z)] constraints inputs) zSupport
  let size := match N with
    | none => 1
    | some n => if n = 0 then 1 else n
  let is ← Py.onSnd (logPflipMany zWeights size)
  let counts ← Py.lift (bincount (is.map fun i : Nat => zSupport.getD i 0))
  let samples ← Py.mapL
    (fun zn : Int × Nat =>
      simulateOne AI rowid targets constraints inputs (some zn.2) (.num zn.1)) counts
  let all ← Py.lift (chainSamples samples)
  match N with
  | none =>
    match all with
    | [] => Py.throw .indexError
    | s :: _ => pure (.one s)
  | some _ => pure (.many all)

/-- `simulate` (src/finite_rowmix.py:44-61). -/
noncomputable def simulate (rowid : RowId) (targets : List Var)
    (constraints inputs : Dict Var Val) (N : Option Nat) : Py (RowMix A × Rng) SimOut := do
  let (m, _) ← Py.get
  match Dict.get? m.rowidToComponent rowid with
  | some z => do
    Py.assert (constraints = [] ∨ Dict.get? constraints m.indexer = none)
    simulateOne AI rowid targets constraints inputs N z
  | none =>
    match Dict.get? constraints m.indexer with
    | some z => do
      let zSupport ← Py.lift m.rowDivide.support
      if ¬ ∃ k ∈ zSupport, z = .num ((k : Int) : ℚ) then Py.throw .valueError
      else simulateOne AI rowid targets constraints inputs N z
    | none => simulateFresh AI rowid targets constraints inputs N

/-- `logpdf_score` (src/finite_rowmix.py:166-169). -/
noncomputable def logpdfScore (m : RowMix A) : Except Err Fl := do
  let scoreZ ← m.rowDivide.logpdfScore
  let scoreX ← AI.logpdfScore m.array
  pure (scoreZ + scoreX)

/-- The single sample returned by `cgpm_row_divide.simulate(rowid, [indexer], inputs_z)`. -/
def oneSample : SimOut → Except Err (Dict Var Val)
  | .one s => .ok s
  | .many _ => .error .typeError

/-- `observe` (src/finite_rowmix.py:171-187).  On line 179 the inputs are passed in the place of
the constraints. -/
noncomputable def observe (rowid : RowId) (observation inputs : Dict Var Val) :
    Py (RowMix A × Rng) Unit := do
  let (m, _) ← Py.get
  let component ←
    match Dict.get? m.rowidToComponent rowid with
    | some z => pure [(m.indexer, z)]
    | none => do
      let inputsZ := getIntersection m.inputsZ inputs
      let component ←
        match Dict.get? observation m.indexer with
        | some z => pure [(m.indexer, z)]
        | none => do
          let out ← Py.onSnd (m.rowDivide.simulate rowid [m.indexer] inputsZ [] none)
          Py.lift (oneSample out)
      onDivide (Prim.observe rowid component inputsZ)
      let z ← Py.lift (Dict.getItem component m.indexer)
      Py.modify fun st =>
        ({ st.1 with rowidToComponent := Dict.set st.1.rowidToComponent rowid z }, st.2)
      pure component
  let inputsX := getIntersection (m.inputsX AI) inputs
  let observationX := getIntersection (m.outputsX AI) observation
  let inputsArr := merged inputsX component
  onArray (AI.observe rowid observationX inputsArr)

/-- `unobserve` (src/finite_rowmix.py:189-195). -/
noncomputable def unobserve (rowid : RowId) :
    Py (RowMix A × Rng) (Dict Var Val × Dict Var Val) := do
  let (obsZ, inputsZ) ← onDivide (Prim.unobserve rowid)
  let (obsX, inputsX) ← onArray (AI.unobserve rowid)
  let (m, _) ← Py.get
  let _ ← Py.lift (Dict.getItem m.rowidToComponent rowid)
  Py.modify fun st =>
    ({ st.1 with rowidToComponent := Dict.del st.1.rowidToComponent rowid }, st.2)
  let observation := merged obsZ obsX
  let inputs := merged inputsZ inputsX
  pure (observation, inputs)

end RowMix

/-- Class `FiniteRowMixture` over components of class `S`. -/
abbrev FinMix (S : Type) := RowMix (FinArray S)

namespace FinMix
variable {S : Type} (I : Iface S)

/-- `FiniteRowMixture.__init__` (src/finite_rowmix.py:23-42). -/
def init (rowDivide : Prim) (components : List S) : Except Err (FinMix S) := do
  if rowDivide.outputs.length ≠ 1 then throw .assertionError
  let support ← rowDivide.support
  if (List.range components.length).map (fun n : Nat => (n : Int)) ≠ support then
    throw .assertionError
  let array ← FinArray.init components (rowDivide.outputs.headD 0)
  pure ⟨rowDivide, array, []⟩

/-- `FiniteRowMixture.to_metadata` (src/finite_rowmix.py:200-207). -/
def toMetadata (m : FinMix S) : Metadata :=
  .finiteRowMixture m.rowDivide.toMetadata (FinArray.toMetadata I m.array) m.rowidToComponent

/-- `FiniteRowMixture.from_metadata` (src/finite_rowmix.py:209-217). -/
noncomputable def fromMetadata : Metadata → Except Err (FinMix S)
  | .finiteRowMixture d a rowidToComponent => do
    let rowDivide ← Prim.fromMetadata d
    let array ← FinArray.fromMetadata I a
    let model ← init rowDivide array.cgpms
    pure { model with rowidToComponent := Dict.update [] rowidToComponent, array := array }
  | _ => .error .typeError

end FinMix

/-- A finite row mixture as a CGPM. -/
noncomputable def finMixI {S : Type} (I : Iface S) : Iface (FinMix S) where
  outputs := RowMix.outputs (finArrayI I)
  inputs := RowMix.inputs (finArrayI I)
  observe := RowMix.observe (finArrayI I)
  unobserve := RowMix.unobserve (finArrayI I)
  logpdf := RowMix.logpdf (finArrayI I)
  simulate := RowMix.simulate (finArrayI I)
  logpdfScore := RowMix.logpdfScore (finArrayI I)
  support _ := .error .attributeError
  toMetadata := FinMix.toMetadata I
  fromMetadata := FinMix.fromMetadata I

/-- Class `FlexibleRowMixture` over components of class `S`. -/
abbrev FlexMix (S : Type) := RowMix (FlexArray S)

namespace FlexMix
variable {S : Type} (I : Iface S)

/-- `FlexibleRowMixture.__init__` (src/flexible_rowmix.py:16-34). -/
def init (rowDivide : Prim) (base : S) : Except Err (FlexMix S) :=
  if rowDivide.outputs.length ≠ 1 then .error .assertionError
  else .ok ⟨rowDivide, FlexArray.init base (rowDivide.outputs.headD 0), []⟩

/-- `FlexibleRowMixture.to_metadata` (src/flexible_rowmix.py:36-44). -/
def toMetadata (m : FlexMix S) : Metadata :=
  .flexibleRowMixture m.rowDivide.toMetadata (FlexArray.toMetadata I m.array) m.rowidToComponent

/-- `FlexibleRowMixture.from_metadata` (src/flexible_rowmix.py:46-54). -/
noncomputable def fromMetadata : Metadata → Except Err (FlexMix S)
  | .flexibleRowMixture d a rowidToComponent => do
    let rowDivide ← Prim.fromMetadata d
    let array ← FlexArray.fromMetadata I a
    let model ← init rowDivide array.base
    pure { model with rowidToComponent := Dict.update [] rowidToComponent, array := array }
  | _ => .error .typeError

end FlexMix

/-- A flexible row mixture as a CGPM. -/
noncomputable def flexMixI {S : Type} (I : Iface S) : Iface (FlexMix S) where
  outputs := RowMix.outputs (flexArrayI I)
  inputs := RowMix.inputs (flexArrayI I)
  observe := RowMix.observe (flexArrayI I)
  unobserve := RowMix.unobserve (flexArrayI I)
  logpdf := RowMix.logpdf (flexArrayI I)
  simulate := RowMix.simulate (flexArrayI I)
  logpdfScore := RowMix.logpdfScore (flexArrayI I)
  support _ := .error .attributeError
  toMetadata := FlexMix.toMetadata I
  fromMetadata := FlexMix.fromMetadata I

end Cgpm2
