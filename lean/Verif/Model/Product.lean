import Verif.Model.Loops

/-!
# src/product.py, and the methods it inherits from src/chain.py

Generic in the class of the components: `I` is their interface.  The constructor flattens
products inside products (`flatten_cgpms`, src/product.py:24), so that a product never has a
product among its components; the model's constructor takes the list after flattening.
-/

namespace Cgpm2

/-- Attributes of `Product` (src/product.py:20-30).  `outputs`, `inputs` and `output_to_index`
are functions of `cgpms`. -/
structure Product (S : Type) where
  cgpms : List S

/-- `observe_one` (src/chain.py:162-168). -/
def observeOne {S : Type} (I : Iface S) (rowid : RowId) (observation inputs : Dict Var Val) :
    Py (S × Rng) Unit := do
  let (c, _) ← Py.get
  let observationCgpm := getIntersection (I.outputs c) observation
  if observationCgpm ≠ [] then do
    let inputsCgpmParents := getIntersection (I.inputs c) observation
    let inputsCgpmExog := getIntersection (I.inputs c) inputs
    let inputsCgpm := merged inputsCgpmParents inputsCgpmExog
    I.observe rowid observationCgpm inputsCgpm
  else pure ()

/-- `unobserve_one` (src/chain.py:170-174). -/
def unobserveOne {S : Type} (I : Iface S) (rowid : RowId) :
    Py (S × Rng) (Dict Var Val × Dict Var Val) :=
  Py.catchAll (I.unobserve rowid) ([], [])

/-- `simulate_one` (src/product.py:82-88). -/
def simulateOne {S : Type} (I : Iface S) (rowid : RowId) (targets : List Var)
    (constraints inputs : Dict Var Val) (N : Option Nat) : Py (S × Rng) SimOut := do
  let (c, _) ← Py.get
  let targetsCgpm := getIntersectionL (I.outputs c) targets
  if targetsCgpm = [] then
    pure (match N with
      | none => .one []
      | some n => .many (List.replicate n []))
  else do
    let constraintsCgpm := getIntersection (I.outputs c) constraints
    let inputsCgpm := getIntersection (I.inputs c) inputs
    I.simulate rowid targetsCgpm constraintsCgpm inputsCgpm N

/-- `logpdf_one` (src/product.py:90-96). -/
noncomputable def logpdfOne {S : Type} (I : Iface S) (rowid : RowId)
    (targets constraints inputs : Dict Var Val) : Py (S × Rng) Fl := do
  let (c, _) ← Py.get
  let targetsCgpm := getIntersection (I.outputs c) targets
  if targetsCgpm = [] then pure 0
  else do
    let constraintsCgpm := getIntersection (I.outputs c) constraints
    let inputsCgpm := getIntersection (I.inputs c) inputs
    I.logpdf rowid targetsCgpm constraintsCgpm inputsCgpm

/-- The samples of `merge_samples` at one position: a list of dicts is merged. -/
def mergeSamplesMany : List SimOut → Except Err (List (List (Dict Var Val)))
  | [] => .ok []
  | .many l :: rest => do
    let ls ← mergeSamplesMany rest
    pure (l :: ls)
  | .one _ :: _ => .error .typeError

/-- `zip(*ls)`: position by position, as long as the shortest. -/
def zipStar (ls : List (List (Dict Var Val))) : List (List (Dict Var Val)) :=
  match ls with
  | [] => []
  | l :: rest =>
    (List.range (rest.foldl (fun n l' => min n l'.length) l.length)).map fun i : Nat =>
      (l :: rest).map fun l' => l'.getD i []

/-- `merge_samples` (src/product.py:73-80).  `samples[0]` of an empty list raises IndexError.
A single sample among lists, or a list among single samples, makes `mergedl` fail with a
TypeError (for an empty zip Python would return `[]` instead; no class of the repository
returns such a mixture when `N = 0`). -/
def mergeSamples (samples : List SimOut) : Except Err SimOut :=
  match samples with
  | [] => .error .indexError
  | .one d :: rest => do
    let ds ← rest.mapM fun s => match s with
      | .one d => Except.ok d
      | .many _ => Except.error Err.typeError
    pure (.one (mergedl (d :: ds)))
  | .many l :: rest => do
    let ls ← mergeSamplesMany (.many l :: rest)
    pure (.many ((zipStar ls).map mergedl))

namespace Product
variable {S : Type} (I : Iface S)

/-- `self.outputs` (src/product.py:27). -/
def outputs (p : Product S) : List Var := p.cgpms.flatMap I.outputs

/-- `self.inputs` (src/product.py:28). -/
def inputs (p : Product S) : List Var := p.cgpms.flatMap I.inputs

/-- `validate_cgpms_product` (src/product.py:64-71). -/
def validate (cgpms : List S) : Except Err Unit :=
  let outs := cgpms.flatMap I.outputs
  if ¬ outs.Nodup then .error .assertionError
  else if ¬ ∀ c ∈ cgpms.flatMap I.inputs, c ∉ outs then .error .assertionError
  else .ok ()

/-- `Product.__init__` (src/product.py:20-30), on a list without products. -/
def init (cgpms : List S) : Except Err (Product S) := do
  validate I cgpms
  pure ⟨cgpms⟩

/-- Run a loop over `self.cgpms`. -/
def each {α : Type} (m : Py (S × Rng) α) : Py (Product S × Rng) (List α) :=
  Py.onAttr Product.cgpms (fun _ l => ⟨l⟩) (Py.each m)

/-- `Product.observe`, inherited from src/chain.py:49-51. -/
def observe (rowid : RowId) (observation inputs : Dict Var Val) : Py (Product S × Rng) Unit := do
  let _ ← each (observeOne I rowid observation inputs)
  pure ()

/-- `Product.unobserve`, inherited from src/chain.py:53-60.  `zip(*[])` cannot be unpacked. -/
def unobserve (rowid : RowId) : Py (Product S × Rng) (Dict Var Val × Dict Var Val) := do
  let pairs ← each (unobserveOne I rowid)
  if pairs = [] then Py.throw .valueError
  else pure (mergedl (pairs.map Prod.fst), mergedl (pairs.map Prod.snd))

/-- `Product.simulate` (src/product.py:32-35). -/
def simulate (rowid : RowId) (targets : List Var) (constraints inputs : Dict Var Val)
    (N : Option Nat) : Py (Product S × Rng) SimOut := do
  let samples ← each (simulateOne I rowid targets constraints inputs N)
  Py.lift (mergeSamples samples)

/-- `Product.logpdf` (src/product.py:37-40). -/
noncomputable def logpdf (rowid : RowId) (targets constraints inputs : Dict Var Val) :
    Py (Product S × Rng) Fl := do
  let logps ← each (logpdfOne I rowid targets constraints inputs)
  pure (Fl.sum logps)

/-- `Product.logpdf_score`, inherited from src/chain.py:98-99. -/
noncomputable def logpdfScore (p : Product S) : Except Err Fl := do
  let l ← p.cgpms.mapM I.logpdfScore
  pure (Fl.sum l)

/-- `Product.to_metadata` (src/product.py:45-49). -/
def toMetadata (p : Product S) : Metadata := .product (p.cgpms.map I.toMetadata)

/-- `Product.from_metadata` (src/product.py:51-55). -/
def fromMetadata : Metadata → Except Err (Product S)
  | .product ms => do
    let cgpms ← ms.mapM I.fromMetadata
    init I cgpms
  | _ => .error .typeError

end Product

/-- A product as a CGPM. -/
noncomputable def productI {S : Type} (I : Iface S) : Iface (Product S) where
  outputs := Product.outputs I
  inputs := Product.inputs I
  observe := Product.observe I
  unobserve := Product.unobserve I
  logpdf := Product.logpdf I
  simulate := Product.simulate I
  logpdfScore := Product.logpdfScore I
  support _ := .error .attributeError
  toMetadata := Product.toMetadata I
  fromMetadata := Product.fromMetadata I

end Cgpm2
