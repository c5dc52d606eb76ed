import Verif.Model.Distribution

/-!
# src/poisson.py
-/

namespace Cgpm2

/-- Attributes of `Poisson` (src/poisson.py:30-40). -/
structure Poisson where
  outputs : List Var
  inputs : List Var
  params : Dict String ℝ
  data : Dict RowId Val
  N : Int
  sumX : ℚ
  sumLogFactX : ℝ
  a : ℝ
  b : ℝ

namespace Poisson

/-- `Poisson.__init__` (src/poisson.py:23-42). -/
noncomputable def init (outputs inputs : List Var) (hypers params : Dict String ℝ) :
    Except Err Poisson :=
  open Classical in
  let a := (Dict.get? hypers "a").getD 1
  let b := (Dict.get? hypers "b").getD 1
  if 0 < a ∧ 0 < b then
    .ok { outputs := outputs, inputs := inputs, params := params, data := [], N := 0,
          sumX := 0, sumLogFactX := 0, a := a, b := b }
  else .error .assertionError

/-- `x % 1 == 0 and x >= 0` (src/poisson.py:48 and 67). -/
def valid (q : ℚ) : Bool := isWhole q && decide (0 ≤ q)

/-- `Poisson.observe` (src/poisson.py:44-53). -/
noncomputable def observe (rowid : RowId) (observation inputs : Dict Var Val) :
    Py Poisson Unit := do
  let s ← Py.get
  Py.lift (observeGuard rowid (Dict.has s.data rowid) s.outputs observation inputs)
  let o ← Py.lift (firstOutput s.outputs)
  let x ← Py.lift (Dict.getItem observation o)
  match x with
  | .nan => Py.modify fun s => { s with data := Dict.set s.data rowid .nan }
  | .num q =>
    if !(valid q) then Py.throw .valueError
    else do
      Py.modify fun s => { s with N := s.N + 1 }
      Py.modify fun s => { s with sumX := s.sumX + q }
      Py.modify fun s => { s with sumLogFactX := s.sumLogFactX + gammaln ((q : ℝ) + 1) }
      Py.modify fun s => { s with data := Dict.set s.data rowid (.num q) }

/-- `Poisson.unobserve` (src/poisson.py:55-62). -/
noncomputable def unobserve (rowid : RowId) : Py Poisson (Dict Var Val × Dict Var Val) := do
  let s ← Py.get
  Py.lift (unobserveGuard (Dict.has s.data rowid))
  let x ← Py.lift (Dict.getItem s.data rowid)
  Py.modify fun s => { s with data := Dict.del s.data rowid }
  match x with
  | .nan => pure ()
  | .num q => do
    Py.modify fun s => { s with N := s.N - 1 }
    Py.modify fun s => { s with sumX := s.sumX - q }
    Py.modify fun s => { s with sumLogFactX := s.sumLogFactX - gammaln ((q : ℝ) + 1) }
  let o ← Py.lift (firstOutput s.outputs)
  pure ([(o, x)], [])

/-- `calc_log_Z` (src/poisson.py:163-165). -/
noncomputable def calcLogZ (a b : ℝ) : Except Err ℝ := do
  let lb ← pyLog b
  pure (gammaln a - a * lb)

/-- `posterior_hypers` (src/poisson.py:167-170). -/
noncomputable def posteriorHypers (N sumX a b : ℝ) : ℝ × ℝ := (a + sumX, b + N)

/-- `calc_predictive_logp` (src/poisson.py:172-177). -/
noncomputable def calcPredictiveLogp (x N sumX a b : ℝ) : Except Err Fl := do
  let (an, bn) := posteriorHypers N sumX a b
  let (am, bm) := posteriorHypers (N + 1) (sumX + x) a b
  let ZN ← calcLogZ an bn
  let ZM ← calcLogZ am bm
  pure (.fin (ZM - ZN - gammaln (x + 1)))

/-- `calc_logpdf_marginal` (src/poisson.py:179-183). -/
noncomputable def calcLogpdfMarginal (N sumX sumLogFactX a b : ℝ) : Except Err Fl := do
  let (an, bn) := posteriorHypers N sumX a b
  let Z0 ← calcLogZ a b
  let ZN ← calcLogZ an bn
  pure (.fin (ZN - Z0 - sumLogFactX))

/-- `Poisson.logpdf` (src/poisson.py:64-71): `nan % 1 == 0` is false, so a missing value gets
`-inf` and the `isnan` test below it is never reached. -/
noncomputable def logpdf (s : Poisson) (rowid : RowId)
    (targets constraints inputs : Dict Var Val) : Except Err Fl := do
  logpdfGuard (Dict.has s.data rowid) s.outputs targets constraints inputs
  let o ← firstOutput s.outputs
  let x ← Dict.getItem targets o
  match x with
  | .nan => pure .ninf
  | .num q =>
    if !(valid q) then pure .ninf
    else calcPredictiveLogp q s.N s.sumX s.a s.b

/-- One call of `Poisson.simulate` (src/poisson.py:73-80).  The negative binomial draw is an
arbitrary natural number. -/
def simulate1 (s : Poisson) (rowid : RowId) (targets : List Var)
    (constraints inputs : Dict Var Val) : Py Rng (Dict Var Val) := do
  Py.lift (simulateGuard s.outputs targets constraints inputs)
  let o ← Py.lift (firstOutput s.outputs)
  match Dict.get? s.data rowid with
  | some (.num q) => pure [(o, .num q)]
  | _ => fun rng =>
    let (x, rng) := rng.draw
    (.ok [(o, .num ((⌊x⌋.toNat : Nat) : ℚ))], rng)

/-- `Poisson.simulate`. -/
def simulate (s : Poisson) (rowid : RowId) (targets : List Var)
    (constraints inputs : Dict Var Val) (N : Option Nat) : Py Rng SimOut :=
  simulateMany (s.simulate1 rowid targets constraints inputs) N

/-- `Poisson.logpdf_score` (src/poisson.py:82-84). -/
noncomputable def logpdfScore (s : Poisson) : Except Err Fl :=
  calcLogpdfMarginal s.N s.sumX s.sumLogFactX s.a s.b

/-- `Poisson.set_hypers` (src/poisson.py:115-119). -/
noncomputable def setHypers (hypers : Dict String ℝ) : Py Poisson Unit := open Classical in do
  let a ← Py.lift (Dict.getItem hypers "a")
  Py.assert (0 < a)
  let b ← Py.lift (Dict.getItem hypers "b")
  Py.assert (0 < b)
  Py.modify fun s => { s with a := a }
  Py.modify fun s => { s with b := b }

/-- `Poisson.get_hypers` (src/poisson.py:121-122). -/
def getHypers (s : Poisson) : Dict String ℝ := [("a", s.a), ("b", s.b)]

/-- `Poisson.get_suffstats` (src/poisson.py:127-129). -/
def getSuffstats (s : Poisson) : Int × ℚ × ℝ := (s.N, s.sumX, s.sumLogFactX)

/-- Fields of `Poisson.to_metadata` (src/poisson.py:86-97). -/
structure Meta where
  outputs : List Var
  inputs : List Var
  N : Int
  data : Dict RowId Val
  sumX : ℚ
  sumLogFactX : ℝ
  a : ℝ
  b : ℝ

def toMetadata (s : Poisson) : Meta where
  outputs := s.outputs
  inputs := s.inputs
  N := s.N
  data := s.data
  sumX := s.sumX
  sumLogFactX := s.sumLogFactX
  a := s.a
  b := s.b

/-- `Poisson.from_metadata` (src/poisson.py:99-108). -/
noncomputable def fromMetadata (m : Meta) : Except Err Poisson := do
  let model ← init m.outputs m.inputs [] []
  pure { model with
    data := Dict.update [] m.data
    N := m.N
    sumX := m.sumX
    sumLogFactX := m.sumLogFactX
    a := m.a
    b := m.b }

/-- `numpy.round` (external): nearest integer, halves to even. -/
noncomputable def npRound (x : ℝ) : ℤ :=
  open Classical in
  if x - ⌊x⌋ < 1/2 then ⌊x⌋
  else if 1/2 < x - ⌊x⌋ then ⌊x⌋ + 1
  else if ⌊x⌋ % 2 = 0 then ⌊x⌋ else ⌊x⌋ + 1

/-- `numpy.unique` on integers (external): sorted without repetitions. -/
def npUnique (l : List Int) : List Int := pySorted l.dedup

/-- `Poisson.construct_hyper_grids` (src/poisson.py:134-140). -/
noncomputable def constructHyperGrids (X : List ℚ) (nGrid : Nat) : Dict String (List ℝ) :=
  let N : ℝ := if X.length > 0 then (X.length : ℝ) else 2
  [("a", (npUnique ((linspace 1 N nGrid).map npRound)).map fun (i : Int) => (i : ℝ)),
   ("b", logLinspace (1/10) N nGrid)]

end Poisson
end Cgpm2
