import Verif.Model.Distribution

/-!
# src/bernoulli.py
-/

namespace Cgpm2

/-- Attributes of `Bernoulli` (src/bernoulli.py:31-40). -/
structure Bernoulli where
  outputs : List Var
  inputs : List Var
  params : Dict String ℝ
  data : Dict RowId Val
  N : Int
  xSum : Int
  alpha : ℝ
  beta : ℝ

namespace Bernoulli

/-- `Bernoulli.__init__` (src/bernoulli.py:24-40). -/
noncomputable def init (outputs inputs : List Var) (hypers params : Dict String ℝ) :
    Bernoulli where
  outputs := outputs
  inputs := inputs
  params := params
  data := []
  N := 0
  xSum := 0
  alpha := (Dict.get? hypers "alpha").getD 1
  beta := (Dict.get? hypers "beta").getD 1

/-- `Bernoulli.observe` (src/bernoulli.py:42-52). -/
def observe (rowid : RowId) (observation inputs : Dict Var Val) : Py Bernoulli Unit := do
  let s ← Py.get
  Py.lift (observeGuard rowid (Dict.has s.data rowid) s.outputs observation inputs)
  let o ← Py.lift (firstOutput s.outputs)
  let x ← Py.lift (Dict.getItem observation o)
  match x with
  | .nan => Py.modify fun s => { s with data := Dict.set s.data rowid .nan }
  | .num q => do
    Py.assert (q = 0 ∨ q = 1)
    let i := truncate q
    Py.modify fun s => { s with N := s.N + 1 }
    Py.modify fun s => { s with xSum := s.xSum + i }
    Py.modify fun s => { s with data := Dict.set s.data rowid (.num (i : ℚ)) }

/-- `Bernoulli.unobserve` (src/bernoulli.py:54-60); held values are whole numbers. -/
def unobserve (rowid : RowId) : Py Bernoulli (Dict Var Val × Dict Var Val) := do
  let s ← Py.get
  Py.lift (unobserveGuard (Dict.has s.data rowid))
  let x ← Py.lift (Dict.getItem s.data rowid)
  Py.modify fun s => { s with data := Dict.del s.data rowid }
  match x with
  | .nan => pure ()
  | .num q => do
    Py.modify fun s => { s with N := s.N - 1 }
    Py.modify fun s => { s with xSum := s.xSum - truncate q }
  let o ← Py.lift (firstOutput s.outputs)
  pure ([(o, x)], [])

/-- `calc_predictive_logp` (src/bernoulli.py:160-165); `one` is `x == 1`. -/
noncomputable def calcPredictiveLogp (one : Bool) (N xSum : Int) (alpha beta : ℝ) :
    Except Err Fl := do
  let logDenom ← pyLog ((N : ℝ) + alpha + beta)
  if one then do
    let a ← pyLog ((xSum : ℝ) + alpha)
    pure (.fin (a - logDenom))
  else do
    let a ← pyLog ((N : ℝ) - (xSum : ℝ) + beta)
    pure (.fin (a - logDenom))

/-- `calc_logpdf_marginal` (src/bernoulli.py:167-168). -/
noncomputable def calcLogpdfMarginal (N xSum : Int) (alpha beta : ℝ) : Fl :=
  .fin (betaln ((xSum : ℝ) + alpha) ((N : ℝ) - (xSum : ℝ) + beta) - betaln alpha beta)

/-- `Bernoulli.logpdf` (src/bernoulli.py:62-67): `nan not in [0, 1]`, so a missing value
gets `-inf`. -/
noncomputable def logpdf (s : Bernoulli) (rowid : RowId)
    (targets constraints inputs : Dict Var Val) : Except Err Fl := do
  logpdfGuard (Dict.has s.data rowid) s.outputs targets constraints inputs
  let o ← firstOutput s.outputs
  let x ← Dict.getItem targets o
  match x with
  | .nan => pure .ninf
  | .num q =>
    if ¬(q = 0 ∨ q = 1) then pure .ninf
    else calcPredictiveLogp (decide (q = 1)) s.N s.xSum s.alpha s.beta

/-- One call of `Bernoulli.simulate` (src/bernoulli.py:69-77). -/
noncomputable def simulate1 (s : Bernoulli) (rowid : RowId) (targets : List Var)
    (constraints inputs : Dict Var Val) : Py Rng (Dict Var Val) := do
  Py.lift (simulateGuard s.outputs targets constraints inputs)
  let o ← Py.lift (firstOutput s.outputs)
  match Dict.get? s.data rowid with
  | some (.num q) => pure [(o, .num q)]
  | _ =>
    let p0 ← Py.lift (calcPredictiveLogp false s.N s.xSum s.alpha s.beta)
    let p1 ← Py.lift (calcPredictiveLogp true s.N s.xSum s.alpha s.beta)
    let i ← logPflipIdx [p0, p1]
    pure [(o, .num ((i : Nat) : ℚ))]

/-- `Bernoulli.simulate`. -/
noncomputable def simulate (s : Bernoulli) (rowid : RowId) (targets : List Var)
    (constraints inputs : Dict Var Val) (N : Option Nat) : Py Rng SimOut :=
  simulateMany (s.simulate1 rowid targets constraints inputs) N

/-- `Bernoulli.logpdf_score` (src/bernoulli.py:79-80). -/
noncomputable def logpdfScore (s : Bernoulli) : Except Err Fl :=
  .ok (calcLogpdfMarginal s.N s.xSum s.alpha s.beta)

/-- `Bernoulli.support` (src/bernoulli.py:127-128). -/
def support (_ : Bernoulli) : List Int := [0, 1]

/-- `Bernoulli.set_hypers` (src/bernoulli.py:109-113). -/
noncomputable def setHypers (hypers : Dict String ℝ) : Py Bernoulli Unit := open Classical in do
  let a ← Py.lift (Dict.getItem hypers "alpha")
  Py.assert (0 < a)
  let b ← Py.lift (Dict.getItem hypers "beta")
  Py.assert (0 < b)
  Py.modify fun s => { s with alpha := a }
  Py.modify fun s => { s with beta := b }

/-- `Bernoulli.get_hypers` (src/bernoulli.py:115-116). -/
def getHypers (s : Bernoulli) : Dict String ℝ := [("alpha", s.alpha), ("beta", s.beta)]

/-- `Bernoulli.get_suffstats` (src/bernoulli.py:121-122). -/
def getSuffstats (s : Bernoulli) : Int × Int := (s.N, s.xSum)

/-- Fields of `Bernoulli.to_metadata` (src/bernoulli.py:82-92). -/
structure Meta where
  outputs : List Var
  inputs : List Var
  data : Dict RowId Val
  N : Int
  xSum : Int
  alpha : ℝ
  beta : ℝ

def toMetadata (s : Bernoulli) : Meta where
  outputs := s.outputs
  inputs := s.inputs
  data := s.data
  N := s.N
  xSum := s.xSum
  alpha := s.alpha
  beta := s.beta

/-- `Bernoulli.from_metadata` (src/bernoulli.py:94-102). -/
noncomputable def fromMetadata (m : Meta) : Bernoulli :=
  { init m.outputs m.inputs [] [] with
    data := Dict.update [] m.data
    N := m.N
    xSum := m.xSum
    alpha := m.alpha
    beta := m.beta }

/-- `Bernoulli.construct_hyper_grids` (src/bernoulli.py:130-136). -/
noncomputable def constructHyperGrids (X : List ℚ) (nGrid : Nat) : Dict String (List ℝ) :=
  let N : ℝ := if X.length > 0 then (X.length : ℝ) else 2
  [("alpha", logLinspace (1 / N) N nGrid), ("beta", logLinspace (1 / N) N nGrid)]

end Bernoulli
end Cgpm2
