import Verif.Model.Cgpm

/-!
# src/entropy.py

`I` is the interface of the cgpm that is asked.  Its methods may change the object (lazily created
components) and the random state, which are threaded through.  Constraints are `None` or a dict;
`None` is passed on to the cgpm, where it counts as `{}`.
-/

namespace Cgpm2

namespace Fl

/-- `x / n` for a numpy float and a list length; with `n = 0` the numerator is 0 or nan. -/
noncomputable def divLen : Fl → Nat → Fl
  | .fin x, n => if n = 0 then .nan else .fin (x / n)
  | x, _ => x

/-- The square of a numpy float. -/
noncomputable def sq : Fl → Fl
  | .fin x => .fin (x * x)
  | .nan => .nan
  | _ => .pinf

/-- `numpy.mean(l)` (external). -/
noncomputable def mean (l : List Fl) : Fl := (Fl.sum l).divLen l.length

/-- `numpy.var(l)` (external): the mean squared distance from the mean. -/
noncomputable def var (l : List Fl) : Fl := mean (l.map fun x => sq (x - mean l))

end Fl

namespace Entropy

/-- What `numpy.mean` and `len` are given: a list, or the iterator made by
`itertools.chain.from_iterable`. -/
inductive Samples
  | list (l : List Fl)
  | iterator (l : List (List Fl))

/-- `get_estimate` (src/entropy.py:20-23): mean and variance.  `numpy.mean` wraps an iterator in a
0-dimensional array of objects, and dividing that object by 1 raises TypeError. -/
noncomputable def getEstimate : Samples → Except Err (Fl × Fl)
  | .iterator _ => .error .typeError
  | .list l => .ok (Fl.mean l, (Fl.var l).divLen l.length)

/-- `set(l) == set(l')`. -/
def setEq (l l' : List Var) : Bool := l.all (fun v => decide (v ∈ l')) && l'.all (fun v => decide (v ∈ l))

/-- `_validate_query` (src/entropy.py:25-51). -/
def validateQuery (outputs targets0 targets1 : List Var) (constraints : Option (Dict Var Val))
    (marginalize : Option (List Var)) : Except Err Unit :=
  let setT := targets0 ++ targets1
  let setC := Dict.keys (constraints.getD [])
  let setM := marginalize.getD []
  let setUk := (setT ++ setC ++ setM).filter fun v => decide (v ∉ outputs)
  if setUk ≠ [] then .error .valueError
  else
    let setTc := setT.filter fun v => decide (v ∈ setC)
    if setTc ≠ [] then .error .valueError
    else
      let setTm := setT.filter fun v => decide (v ∈ setM)
      if setTm ≠ [] then .error .valueError
      else
        let setCm := setC.filter fun v => decide (v ∈ setM)
        if setCm ≠ [] then .error .valueError
        else
          let setT01 := targets0.filter fun v => decide (v ∈ targets1)
          if setEq targets0 targets1 = false ∧ setT01 ≠ [] then .error .valueError
          else .ok ()

/-- Iterating over what `simulate` returned; the keys of a single dict are not samples. -/
def sampleList : SimOut → Except Err (List (Dict Var Val))
  | .many l => .ok l
  | .one _ => .error .typeError

/-- `{t: sample[t] for t in targets}` (src/entropy.py:64-65). -/
def project (targets : List Var) (sample : Dict Var Val) : Except Err (Dict Var Val) := do
  let items ← targets.mapM fun t => do
    let x ← Dict.getItem sample t
    pure (t, x)
  pure (Dict.update [] items)

variable {S : Type} (I : Iface S)

/-- `_sample_entropy` (src/entropy.py:56-60). -/
noncomputable def sampleEntropy (targets0 targets1 : List Var) (constraints : Option (Dict Var Val))
    (N : Nat) : Py (S × Rng) (List Fl) := do
  Py.assert (setEq targets0 targets1 = true)
  let out ← I.simulate none targets0 (constraints.getD []) [] (some N)
  let samples ← Py.lift (sampleList out)
  let PX ← Py.mapL (fun sample => I.logpdf none sample (constraints.getD []) []) samples
  pure (PX.map fun p => -p)

/-- `[pxy - px - py for (pxy, px, py) in zip(PXY, PX, PY)]` (src/entropy.py:69). -/
noncomputable def miTerms : List Fl → List Fl → List Fl → List Fl
  | pxy :: PXY, px :: PX, py :: PY => (pxy - px - py) :: miTerms PXY PX PY
  | _, _, _ => []

/-- `_sample_mi` (src/entropy.py:62-69). -/
noncomputable def sampleMi (targets0 targets1 : List Var) (constraints : Option (Dict Var Val))
    (N : Nat) : Py (S × Rng) (List Fl) := do
  let out ← I.simulate none (targets0 ++ targets1) (constraints.getD []) [] (some N)
  let samples ← Py.lift (sampleList out)
  let samplesT0 ← Py.lift (samples.mapM (project targets0))
  let samplesT1 ← Py.lift (samples.mapM (project targets1))
  let PXY ← Py.mapL (fun sample => I.logpdf none sample (constraints.getD []) []) samples
  let PX ← Py.mapL (fun sample => I.logpdf none sample (constraints.getD []) []) samplesT0
  let PY ← Py.mapL (fun sample => I.logpdf none sample (constraints.getD []) []) samplesT1
  pure (miTerms PXY PX PY)

/-- `_get_estimator` (src/entropy.py:53-54), applied. -/
noncomputable def estimator (targets0 targets1 : List Var) (constraints : Option (Dict Var Val))
    (N : Nat) : Py (S × Rng) (List Fl) :=
  if setEq targets0 targets1 = true then sampleEntropy I targets0 targets1 constraints N
  else sampleMi I targets0 targets1 constraints N

/-- `N or 100` (src/entropy.py:15-16, 74-75). -/
def orDefault : Option Nat → Nat
  | none => 100
  | some n => if n = 0 then 100 else n

/-- `merged(constraints, m)` (src/entropy.py:81); updating a dict by `None` raises TypeError. -/
def mergeConstraints (constraints : Option (Dict Var Val)) (m : Dict Var Val) :
    Except Err (Dict Var Val) :=
  match constraints with
  | none => .error .typeError
  | some c => .ok (merged c m)

/-- `mutual_information` (src/entropy.py:71-85): mean and variance of the estimate. -/
noncomputable def mutualInformation (targets0 targets1 : List Var)
    (constraints : Option (Dict Var Val)) (marginalize : Option (List Var)) (T N : Option Nat) :
    Py (S × Rng) (Fl × Fl) := do
  let (c, _) ← Py.get
  Py.lift (validateQuery (I.outputs c) targets0 targets1 constraints marginalize)
  let n := orDefault N
  let t := orDefault T
  if marginalize.getD [] = [] then do
    let samplesMi ← estimator I targets0 targets1 constraints n
    Py.lift (getEstimate (.list samplesMi))
  else do
    let out ← I.simulate none (marginalize.getD []) [] [] (some t)
    let samplesMarginalize ← Py.lift (sampleList out)
    let constraintsCm ← Py.lift (samplesMarginalize.mapM (mergeConstraints constraints))
    let estimates ← Py.mapL (fun cm => estimator I targets0 targets1 (some cm) n) constraintsCm
    Py.lift (getEstimate (.iterator estimates))

end Entropy
end Cgpm2
