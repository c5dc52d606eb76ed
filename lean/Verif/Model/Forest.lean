import Verif.Model.LinReg

/-!
# src/forest.py

`sklearn.ensemble.RandomForestClassifier` is external: `fit` is a function from training data to a
fitted classifier, which consists of its classes and of `predict_log_proba` for one row.
-/

namespace Cgpm2

/-- A fitted classifier: `classes_` and `predict_log_proba` of one row (src/forest.py:92-93, 118-121;
external). -/
structure Classifier where
  classes : List Val
  predict : List Val → Except Err (List Fl)

/-- `self.regressor` (src/forest.py:62, 118-119): None, a classifier whose `fit` raised, or a fitted
one.  `not self.regressor` asks a classifier for its length, which raises AttributeError before it
is fitted (scikit-learn). -/
inductive Regressor where
  | absent
  | unfitted
  | fitted (c : Classifier)

/-- Attributes of `RandomForest` (src/forest.py:45-62). -/
structure Forest where
  outputs : List Var
  inputs : List Var
  params : Dict String ℝ
  k : Nat
  /-- `distargs['levels']`, with 0 for None. -/
  distLevels : List Nat
  levels : Dict Var Nat
  N : Int
  data : Dict RowId Val
  dataYraw : Dict RowId (List (Option Val))
  dataYdum : Dict RowId (List Val)
  classToIndex : Dict Val Nat
  regressor : Regressor

namespace Forest

/-- `self.p` (src/forest.py:54-55). -/
abbrev p (m : Forest) : Nat := regDim m.distLevels

/-- `RandomForest.__init__` (src/forest.py:35-62). -/
def init (outputs inputs : List Var) (k : Nat) (distLevels : List Nat) (params : Dict String ℝ) :
    Except Err Forest :=
  if outputs.length ≠ 1 then .error .assertionError
  else if inputs.length = 0 then .error .assertionError
  else match outputs with
  | [] => .error .indexError
  | o :: _ =>
    if o ∈ inputs then .error .assertionError
    else if distLevels.length ≠ inputs.length then .error .assertionError
    else .ok
      { outputs := outputs, inputs := inputs, params := params, k := k, distLevels := distLevels,
        levels := LinReg.levelsOf inputs distLevels, N := 0, data := [], dataYraw := [],
        dataYdum := [], classToIndex := [], regressor := .absent }

/-- `dummy_code_one` (src/forest.py:215-228). -/
def dummyCodeOne (codes : Dict Var Nat) (i : Var) (val : Val) : Except Err (List Val) :=
  match Dict.get? codes i with
  | none => .ok [val]
  | some levels =>
    match val with
    | .nan => .ok (List.replicate (levels - 1) .nan)
    | .num q =>
      let coded := List.replicate (levels - 1) (Val.num 0)
      if 0 ≤ q ∧ q < levels then
        if isWhole q then
          if q < (((levels : Int) - 1 : Int) : ℚ) then .ok (coded.set (truncate q).toNat (.num 1))
          else .ok coded
        else .error .assertionError
      else .error .assertionError

/-- `RandomForest.process_inputs` (src/forest.py:171-177). -/
def processInputs (m : Forest) (inputs : Dict Var Val) : Except Err (List Val) := do
  let coded ← m.inputs.mapM fun i => do
    let v ← Dict.getItem inputs i
    dummyCodeOne m.levels i v
  let yDum := coded.flatten
  if yDum.length = m.p - 1 then .ok (.num 1 :: yDum) else .error .assertionError

/-- `RandomForest.observe` (src/forest.py:64-73). -/
def observe (rowid : RowId) (observation inputs : Dict Var Val) : Py Forest Unit := do
  let m ← Py.get
  Py.assert (Dict.has m.data rowid = false)
  Py.assert (Dict.keys observation = m.outputs)
  let o ← Py.lift (firstOutput m.outputs)
  let x ← Py.lift (Dict.getItem observation o)
  let yRaw := m.inputs.map fun i => Dict.get? inputs i
  let yDum ← Py.lift (m.processInputs inputs)
  Py.modify fun m => { m with N := m.N + 1 }
  Py.modify fun m => { m with data := Dict.set m.data rowid x }
  Py.modify fun m => { m with dataYraw := Dict.set m.dataYraw rowid yRaw }
  Py.modify fun m => { m with dataYdum := Dict.set m.dataYdum rowid yDum }

/-- `RandomForest.unobserve` (src/forest.py:75-79).  `dict(zip(self.inputs), y_raw)` raises
TypeError. -/
def unobserve (rowid : RowId) : Py Forest (Dict Var Val × Dict Var Val) := do
  let m ← Py.get
  let _x ← Py.lift (Dict.getItem m.data rowid)
  Py.modify fun m => { m with data := Dict.del m.data rowid }
  let _yRaw ← Py.lift (Dict.getItem m.dataYraw rowid)
  Py.modify fun m => { m with dataYraw := Dict.del m.dataYraw rowid }
  let _yDum ← Py.lift (Dict.getItem m.dataYdum rowid)
  Py.modify fun m => { m with dataYdum := Dict.del m.dataYdum rowid }
  let _o ← Py.lift (firstOutput m.outputs)
  Py.throw .typeError

/-- `RandomForest.logpdf` (src/forest.py:81-94).  `math.log(0)` raises ValueError. -/
noncomputable def logpdf (m : Forest) (rowid : RowId) (targets constraints inputs : Dict Var Val) :
    Except Err Fl := do
  if Dict.has m.data rowid then .error .assertionError
  else if constraints ≠ [] then .error .assertionError
  else if Dict.keys targets ≠ m.outputs then .error .assertionError
  else
    let o ← firstOutput m.outputs
    let x ← Dict.getItem targets o
    match Dict.get? m.classToIndex x with
    | none => .ok .ninf
    | some ix =>
      match m.regressor with
      | .unfitted => .error .attributeError
      | .absent => do
        let l ← pyLog (m.k : ℝ)
        .ok (.fin (-l))
      | .fitted reg => do
        let yDum ← m.processInputs inputs
        let logps ← reg.predict yDum
        match logps[ix]? with
        | some l => .ok l
        | none => .error .indexError

/-- `N or 1` (src/forest.py:100, 102, 108). -/
def orOne : Option Nat → Nat
  | none => 1
  | some 0 => 1
  | some n => n

/-- `dictify_samples` (src/forest.py:239-245). -/
def dictifySamples (output : Var) (samples : List Val) : Option Nat → Except Err SimOut
  | none => match samples with
    | [x] => .ok (.one [(output, x)])
    | _ => .error .assertionError
  | some n =>
    if samples.length = n then .ok (.many (samples.map fun x => [(output, x)]))
    else .error .assertionError

/-- `rng.choice(range(k), size)`: independent uniform draws; ValueError for an empty range
(src/forest.py:102; numpy). -/
noncomputable def choices (k : Nat) : Nat → Py Rng (List Val)
  | 0 => pure []
  | n + 1 => do
    if k = 0 then Py.throw .valueError
    else
      let u ← fun rng => (.ok rng.uniform.1, rng.uniform.2)
      let l ← choices k n
      pure (.num ((⌊u * k⌋ : Int) : ℚ) :: l)

/-- `log_pflip(logps, array=classes, size)`: independent draws (src/forest.py:107-108; external
`log_pflip` as in `Py.Fl`). -/
noncomputable def flips (logps : List Fl) (classes : List Val) : Nat → Py Rng (List Val)
  | 0 => pure []
  | n + 1 => do
    let i ← logPflipIdx logps
    match classes[i]? with
    | none => Py.throw .indexError
    | some c => do
      let l ← flips logps classes n
      pure (c :: l)

/-- `RandomForest.simulate` (src/forest.py:96-109). -/
noncomputable def simulate (m : Forest) (rowid : RowId) (targets : List Var)
    (constraints inputs : Dict Var Val) (N : Option Nat) : Py Rng SimOut := do
  Py.assert (targets = m.outputs)
  Py.assert (constraints = [])
  let samples ← match Dict.get? m.data rowid with
    | some x => pure (List.replicate (orOne N) x)
    | none => match m.regressor with
      | .unfitted => Py.throw .attributeError
      | .absent => choices m.k (orOne N)
      | .fitted reg => do
        let yDum ← Py.lift (m.processInputs inputs)
        let logps ← Py.lift (reg.predict yDum)
        flips logps (Dict.keys m.classToIndex) (orOne N)
  let o ← Py.lift (firstOutput m.outputs)
  Py.lift (dictifySamples o samples N)

/-- `RandomForest.logpdf_score` (src/forest.py:111-112): there is none, it returns None. -/
def logpdfScore (_m : Forest) : Except Err (Option Fl) := .ok none

/-- `get_training_data` (src/forest.py:230-237).  For no rows at all, `numpy.any(…, axis=1)` raises
an AxisError (counted as ValueError). -/
def getTrainingData (dataY : List (List Val)) (dataX : List Val) :
    Except Err (List (List Val) × List Val) :=
  if dataY.length ≠ dataX.length then .error .assertionError
  else if dataY.length = 0 then .error .valueError
  else
    let kept := (dataY.zip dataX).filter fun z => !(z.1.any Val.isNan || z.2.isNan)
    .ok (kept.map Prod.fst, kept.map Prod.snd)

/-- `RandomForest.transition` (src/forest.py:116-122), given what `fit` returns. -/
def transition (fit : List (List Val) → List Val → Except Err Classifier) : Py Forest Unit := do
  let m ← Py.get
  let (Y, x) ← Py.lift (getTrainingData (Dict.values m.dataYdum) (Dict.values m.data))
  Py.modify fun m => { m with regressor := .unfitted }
  let reg ← Py.lift (fit Y x)
  Py.modify fun m => { m with regressor := .fitted reg }
  Py.modify fun m => { m with classToIndex := Dict.update [] (reg.classes.zipIdx) }

/-- Fields of `RandomForest.to_metadata` (src/forest.py:179-193).  The pickled classifier stands for
the classifier. -/
structure Meta where
  outputs : List Var
  inputs : List Var
  k : Nat
  distLevels : List Nat
  N : Int
  data : Dict RowId Val
  dataYraw : Dict RowId (List (Option Val))
  dataYdum : Dict RowId (List Val)
  classToIndex : Dict Val Nat
  regressor : Regressor

/-- `RandomForest.to_metadata` (src/forest.py:179-193). -/
def toMetadata (m : Forest) : Meta where
  outputs := m.outputs
  inputs := m.inputs
  k := m.k
  distLevels := m.distLevels
  N := m.N
  data := m.data
  dataYraw := m.dataYraw
  dataYdum := m.dataYdum
  classToIndex := m.classToIndex
  regressor := m.regressor

/-- `RandomForest.from_metadata` (src/forest.py:195-212). -/
def fromMetadata (d : Meta) : Except Err Forest := do
  let model ← init d.outputs d.inputs d.k d.distLevels []
  pure { model with
    N := d.N
    data := Dict.update [] d.data
    dataYraw := Dict.update [] d.dataYraw
    dataYdum := Dict.update [] d.dataYdum
    classToIndex := Dict.update [] d.classToIndex
    regressor := d.regressor }

end Forest
end Cgpm2
