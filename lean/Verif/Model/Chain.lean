import Verif.Model.Cgpm
import Verif.Model.LinReg
import Verif.Model.Forest

/-!
# src/chain.py: a network of CGPMs whose inputs may be outputs of other members

`cgpm.network.helpers` is external.  A chain carries the topological order computed when it is made,
and the function that lists the required inputs of a query (`Network`); `Spec.NetworkOk` says what
they are relied on for.  Members are generic with interface `I`; `Member` lists the classes of the
repository.  `to_metadata` and `from_metadata` are in `Model/ChainMeta`.
-/

namespace Cgpm2

/-- `self.topo` and `retrieve_required_inputs(self.cgpms, self.topo, targets, constraints,
self.extraneous)` as a function of the targets and the constrained variables (src/chain.py:44-47,
123-124; external). -/
structure Network where
  topo : List Nat
  required : List Var → List Var → List Var

/-- Attributes of `Chain` (src/chain.py:34-47). -/
structure Chain (S : Type) where
  cgpms : List S
  accuracy : Nat
  net : Network

/-- `cgpm.utils.general.logmeanexp` (external), with `logsumexp` as in `Py.Fl`. -/
noncomputable def Fl.logmeanexp (l : List Fl) : Fl := Fl.logsumexp l - .fin (Real.log l.length)

/-- `math.isinf`. -/
def Fl.isInf : Fl → Bool
  | .ninf => true
  | .pinf => true
  | _ => false

/-- A method of the element of a list at an index, put back afterwards. -/
def Py.atIndex {S T α : Type} (k : Nat) (m : Py (S × T) α) : Py (List S × T) α := fun st =>
  match st.1[k]? with
  | none => (.error .indexError, st)
  | some c => match m (c, st.2) with
    | (r, (c', t')) => (r, (st.1.set k c', t'))

namespace Chain
variable {S : Type} (I : Iface S)

/-- `Chain.__init__` (src/chain.py:34-47): `accuracy or 1`.  The list is the one after
`flatten_cgpms`, with no chain among the members; `validate_cgpms` is external. -/
def init (cgpms : List S) (accuracy : Option Nat) (net : Network) : Chain S :=
  ⟨cgpms, Forest.orOne accuracy, net⟩

/-- `self.outputs` (src/chain.py:42). -/
def outputs (c : Chain S) : List Var := c.cgpms.flatMap I.outputs

/-- `self.inputs` (src/chain.py:43). -/
def inputs (c : Chain S) : List Var := c.cgpms.flatMap I.inputs

/-- Run a loop over `self.cgpms`. -/
def each {α : Type} (m : Py (S × Rng) α) : Py (Chain S × Rng) (List α) :=
  Py.onAttr Chain.cgpms (fun c l => { c with cgpms := l }) (Py.each m)

/-- `Chain.observe` (src/chain.py:49-51). -/
def observe (rowid : RowId) (observation inputs : Dict Var Val) : Py (Chain S × Rng) Unit := do
  let _ ← each (observeOne I rowid observation inputs)
  pure ()

/-- `Chain.unobserve` (src/chain.py:53-60).  `zip(*[])` cannot be unpacked. -/
def unobserve (rowid : RowId) : Py (Chain S × Rng) (Dict Var Val × Dict Var Val) := do
  let pairs ← each (unobserveOne I rowid)
  if pairs = [] then Py.throw .valueError
  else pure (mergedl (pairs.map Prod.fst), mergedl (pairs.map Prod.snd))

/-- `cgpm_inputs` in `Chain.invoke_cgpm` (src/chain.py:137-140): later entries win. -/
def cgpmInputs (c : S) (constraints inputs : Dict Var Val) : Dict Var Val :=
  merged (getIntersection (I.inputs c) inputs) (getIntersection (I.inputs c) constraints)

/-- The assertion of `Chain.invoke_cgpm` (src/chain.py:145-146). -/
def checkInputs (c : S) (targets : List Var) (constraints inputs : Dict Var Val) : Py (S × Rng) Unit :=
  if getIntersection (I.outputs c) constraints ≠ [] ∨ getIntersectionL (I.outputs c) targets ≠ []
  then Py.assert (∀ i ∈ I.inputs c, Dict.has (cgpmInputs I c constraints inputs) i = true)
  else pure ()

/-- The weight of `Chain.invoke_cgpm` (src/chain.py:147-152). -/
noncomputable def memberWeight (c : S) (rowid : RowId) (constraints inputs : Dict Var Val) :
    Py (S × Rng) Fl :=
  if getIntersection (I.outputs c) constraints ≠ []
  then I.logpdf rowid (getIntersection (I.outputs c) constraints) []
    (cgpmInputs I c constraints inputs)
  else pure 0

/-- The sample of `Chain.invoke_cgpm` (src/chain.py:153-158).  A list of samples, which no class
returns without `N`, could not be merged (TypeError). -/
def memberSample (c : S) (rowid : RowId) (targets : List Var) (constraints inputs : Dict Var Val) :
    Py (S × Rng) (Dict Var Val) :=
  if getIntersectionL (I.outputs c) targets ≠ []
  then do
    let out ← I.simulate rowid (getIntersectionL (I.outputs c) targets)
      (getIntersection (I.outputs c) constraints) (cgpmInputs I c constraints inputs) none
    match out with
    | .one s => pure s
    | .many _ => Py.throw .typeError
  else pure []

/-- `Chain.invoke_cgpm` (src/chain.py:136-159).  The two calls are given copies of `cgpm_inputs`. -/
noncomputable def invokeCgpm (rowid : RowId) (targets : List Var) (constraints inputs : Dict Var Val) :
    Py (S × Rng) (Dict Var Val × Fl) := do
  let (c, _) ← Py.get
  checkInputs I c targets constraints inputs
  let weight ← memberWeight I c rowid constraints inputs
  let sample ← memberSample I c rowid targets constraints inputs
  pure (sample, weight)

/-- The loop of `Chain.weighted_sample` (src/chain.py:126-132). -/
noncomputable def levels (rowid : RowId) (targets : List Var) (inputs : Dict Var Val) :
    List Nat → Dict Var Val → Fl → Py (List S × Rng) (Dict Var Val × Fl)
  | [], sample, weight => pure (sample, weight)
  | level :: topo, sample, weight => do
    let (sampleLevel, weightLevel) ← Py.atIndex level (invokeCgpm I rowid targets sample inputs)
    levels rowid targets inputs topo (Dict.update sample sampleLevel) (weight + weightLevel)

/-- `Chain.weighted_sample` (src/chain.py:122-134). -/
noncomputable def weightedSample (rowid : RowId) (targets : List Var) (constraints inputs : Dict Var Val) :
    Py (Chain S × Rng) (Dict Var Val × Fl) := do
  let (ch, _) ← Py.get
  let targetsAll := targets ++ ch.net.required targets (Dict.keys constraints)
  let (sample, weight) ← Py.onAttr Chain.cgpms (fun c l => { c with cgpms := l })
    (levels I rowid targetsAll inputs ch.net.topo constraints 0)
  Py.assert ((∀ k ∈ Dict.keys sample, k ∈ Dict.keys constraints ++ targetsAll) ∧
    ∀ k ∈ Dict.keys constraints ++ targetsAll, k ∈ Dict.keys sample)
  pure (sample, weight)

/-- `[self.weighted_sample(…) for _i in xrange(self.accuracy)]` (src/chain.py:67-70, 81-85,
88-91). -/
noncomputable def weightedSamples (rowid : RowId) (targets : List Var)
    (constraints inputs : Dict Var Val) : Py (Chain S × Rng) (List (Dict Var Val × Fl)) := do
  let (ch, _) ← Py.get
  Py.mapL (fun _ => weightedSample I rowid targets constraints inputs) (List.range ch.accuracy)

/-- `weights_marginal` (src/chain.py:88-91). -/
noncomputable def marginalWeights (rowid : RowId) (constraints inputs : Dict Var Val) :
    Py (Chain S × Rng) (List Fl) :=
  if constraints ≠ [] then do
    let l ← weightedSamples I rowid [] constraints inputs
    pure (l.map Prod.snd)
  else pure [.fin 0]

/-- `Chain.logpdf` (src/chain.py:77-96). -/
noncomputable def logpdf (rowid : RowId) (targets constraints inputs : Dict Var Val) :
    Py (Chain S × Rng) Fl := do
  let joint ← weightedSamples I rowid [] (merged targets constraints) inputs
  let marginal ← marginalWeights I rowid constraints inputs
  if marginal.all Fl.isInf then Py.throw .valueError
  else pure (Fl.logmeanexp (joint.map Prod.snd) - Fl.logmeanexp marginal)

/-- `Chain.simulate` without `N` (src/chain.py:62-75). -/
noncomputable def simulate1 (rowid : RowId) (targets : List Var) (constraints inputs : Dict Var Val) :
    Py (Chain S × Rng) (Dict Var Val) := do
  let l ← weightedSamples I rowid targets constraints inputs
  if (l.map Prod.snd).all Fl.isInf then Py.throw .valueError
  else do
    let (ch, _) ← Py.get
    let index ← if ch.accuracy = 1 then pure 0 else Py.onSnd (logPflipIdx (l.map Prod.snd))
    match l[index]? with
    | none => Py.throw .indexError
    | some (sample, _) => do
      let values ← Py.lift (targets.mapM fun q => Dict.getItem sample q)
      pure (Dict.update [] (targets.zip values))

/-- `Chain.simulate` (src/chain.py:62-75); `simulate_many` is external. -/
noncomputable def simulate (rowid : RowId) (targets : List Var) (constraints inputs : Dict Var Val) :
    Option Nat → Py (Chain S × Rng) SimOut
  | none => do
    let s ← simulate1 I rowid targets constraints inputs
    pure (.one s)
  | some n => do
    let l ← Py.mapL (fun _ => simulate1 I rowid targets constraints inputs) (List.range n)
    pure (.many l)

/-- `Chain.logpdf_score` (src/chain.py:98-99). -/
noncomputable def logpdfScore (c : Chain S) : Except Err Fl := do
  let l ← c.cgpms.mapM I.logpdfScore
  pure (Fl.sum l)

end Chain

/-- A member of a chain: a primitive or composite, a LinearRegression or a RandomForest. -/
inductive Member
  | tower (n : Nat) (c : Cgpm n)
  | linreg (m : LinReg)
  | forest (m : Forest)

/-- A method of a regression, which draws nothing, beside the random state. -/
def Py.memberLinreg {α : Type} (f : Py LinReg α) (m : LinReg) (g : Rng) : Except Err α × (Member × Rng) :=
  match f m with
  | (r, m') => (r, (.linreg m', g))

/-- The same for a forest. -/
def Py.memberForest {α : Type} (f : Py Forest α) (m : Forest) (g : Rng) : Except Err α × (Member × Rng) :=
  match f m with
  | (r, m') => (r, (.forest m', g))

/-- Dispatch over the members.  The score of a forest is None (src/forest.py:111-112), and adding it
up raises TypeError.  Neither regressions nor forests have `support`.  Metadata of members is not
modelled here. -/
noncomputable def memberI : Iface Member where
  outputs
    | .tower n c => (cgpmI n).outputs c
    | .linreg m => m.outputs
    | .forest m => m.outputs
  inputs
    | .tower n c => (cgpmI n).inputs c
    | .linreg m => m.inputs
    | .forest m => m.inputs
  observe r o i
    | (.tower n c, g) => Py.inside (.tower n) ((cgpmI n).observe r o i) (c, g)
    | (.linreg m, g) => Py.memberLinreg (LinReg.observe r o i) m g
    | (.forest m, g) => Py.memberForest (Forest.observe r o i) m g
  unobserve r
    | (.tower n c, g) => Py.inside (.tower n) ((cgpmI n).unobserve r) (c, g)
    | (.linreg m, g) => Py.memberLinreg (LinReg.unobserve r) m g
    | (.forest m, g) => Py.memberForest (Forest.unobserve r) m g
  logpdf r t c i
    | (.tower n s, g) => Py.inside (.tower n) ((cgpmI n).logpdf r t c i) (s, g)
    | (.linreg m, g) => (m.logpdf r t c i, (.linreg m, g))
    | (.forest m, g) => (m.logpdf r t c i, (.forest m, g))
  simulate r t c i N
    | (.tower n s, g) => Py.inside (.tower n) ((cgpmI n).simulate r t c i N) (s, g)
    | (.linreg m, g) => match m.simulate r t c i N g with
      | (out, g') => (out, (.linreg m, g'))
    | (.forest m, g) => match m.simulate r t c i N g with
      | (out, g') => (out, (.forest m, g'))
  logpdfScore
    | .tower n c => (cgpmI n).logpdfScore c
    | .linreg m => m.logpdfScore
    | .forest m => match m.logpdfScore with
      | .ok (some x) => .ok x
      | .ok none => .error .typeError
      | .error e => .error e
  support
    | .tower n c => (cgpmI n).support c
    | .linreg _ => .error .attributeError
    | .forest _ => .error .attributeError
  toMetadata
    | .tower n c => (cgpmI n).toMetadata c
    | .linreg _ => .chain [] 0
    | .forest _ => .chain [] 0
  fromMetadata _ := .error .notImplemented

end Cgpm2
