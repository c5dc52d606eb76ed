import Verif.Model.Distribution

/-!
# src/categorical.py
-/

namespace Cgpm2

/-- Attributes of `Categorical` (src/categorical.py:31-40).  `counts` is a float array of
length `k` holding whole numbers. -/
structure Categorical where
  outputs : List Var
  inputs : List Var
  params : Dict String ℝ
  k : Nat
  data : Dict RowId Val
  N : Int
  counts : List Int
  alpha : ℝ

namespace Categorical

/-- `Categorical.__init__` (src/categorical.py:24-40); `distargs = {'k': k}` with `k` a
non-negative whole number (anything else raises before an object exists). -/
noncomputable def init (outputs inputs : List Var) (hypers params : Dict String ℝ) (k : Nat) :
    Categorical where
  outputs := outputs
  inputs := inputs
  params := params
  k := k
  data := []
  N := 0
  counts := List.replicate k 0
  alpha := (Dict.get? hypers "alpha").getD 1

/-- `x % 1 == 0 and 0 <= x < self.k` (src/categorical.py:46 and 66). -/
def valid (k : Nat) (q : ℚ) : Bool := isWhole q && decide (0 ≤ q) && decide (q < (k : ℚ))

/-- `Categorical.observe` (src/categorical.py:42-51). -/
def observe (rowid : RowId) (observation inputs : Dict Var Val) : Py Categorical Unit := do
  let s ← Py.get
  Py.lift (observeGuard rowid (Dict.has s.data rowid) s.outputs observation inputs)
  let o ← Py.lift (firstOutput s.outputs)
  let x ← Py.lift (Dict.getItem observation o)
  match x with
  | .nan => Py.modify fun s => { s with data := Dict.set s.data rowid .nan }
  | .num q =>
    if !(valid s.k q) then Py.throw .valueError
    else do
      let i := truncate q
      Py.modify fun s => { s with N := s.N + 1 }
      Py.modify fun s => { s with counts := s.counts.modify i.toNat (· + 1) }
      Py.modify fun s => { s with data := Dict.set s.data rowid (.num (i : ℚ)) }

/-- `Categorical.unobserve` (src/categorical.py:53-59). -/
def unobserve (rowid : RowId) : Py Categorical (Dict Var Val × Dict Var Val) := do
  let s ← Py.get
  Py.lift (unobserveGuard (Dict.has s.data rowid))
  let x ← Py.lift (Dict.getItem s.data rowid)
  Py.modify fun s => { s with data := Dict.del s.data rowid }
  match x with
  | .nan => pure ()
  | .num q => do
    Py.modify fun s => { s with N := s.N - 1 }
    Py.modify fun s => { s with counts := s.counts.modify (truncate q).toNat (· - 1) }
  let o ← Py.lift (firstOutput s.outputs)
  pure ([(o, x)], [])

/-- `calc_predictive_logp` (src/categorical.py:161-164). -/
noncomputable def calcPredictiveLogp (x : Nat) (counts : List Int) (alpha : ℝ) :
    Except Err Fl := do
  let numer ← pyLog (alpha + ((counts.getD x 0 : Int) : ℝ))
  let denom ← pyLog (((counts.sum : Int) : ℝ) + alpha * counts.length)
  pure (.fin (numer - denom))

/-- `calc_logpdf_marginal` (src/categorical.py:166-170). -/
noncomputable def calcLogpdfMarginal (N : Int) (counts : List Int) (alpha : ℝ) : Fl :=
  let K : ℝ := counts.length
  let A := K * alpha
  let lg := (counts.map fun (c : Int) => gammaln ((c : ℝ) + alpha)).sum
  .fin (gammaln A - gammaln (A + N) + lg - K * gammaln alpha)

/-- `Categorical.logpdf` (src/categorical.py:61-68). -/
noncomputable def logpdf (s : Categorical) (rowid : RowId)
    (targets constraints inputs : Dict Var Val) : Except Err Fl := do
  logpdfGuard (Dict.has s.data rowid) s.outputs targets constraints inputs
  let o ← firstOutput s.outputs
  let x ← Dict.getItem targets o
  match x with
  | .nan => pure (.fin 0)
  | .num q =>
    if !(valid s.k q) then pure .ninf
    else calcPredictiveLogp (truncate q).toNat s.counts s.alpha

/-- The weights `self.counts + self.alpha` of `Categorical.simulate` (src/categorical.py:75).
`pflip` normalises them. -/
noncomputable def simulateWeights (s : Categorical) : List ℝ :=
  s.counts.map fun (c : Int) => (c : ℝ) + s.alpha

/-- One call of `Categorical.simulate` (src/categorical.py:70-76). -/
noncomputable def simulate1 (s : Categorical) (rowid : RowId) (targets : List Var)
    (constraints inputs : Dict Var Val) : Py Rng (Dict Var Val) := do
  Py.lift (simulateGuard s.outputs targets constraints inputs)
  let o ← Py.lift (firstOutput s.outputs)
  match Dict.get? s.data rowid with
  | some (.num q) => pure [(o, .num q)]
  | _ =>
    let i ← pflipIdx s.simulateWeights
    pure [(o, .num ((i : Nat) : ℚ))]

/-- `Categorical.simulate`. -/
noncomputable def simulate (s : Categorical) (rowid : RowId) (targets : List Var)
    (constraints inputs : Dict Var Val) (N : Option Nat) : Py Rng SimOut :=
  simulateMany (s.simulate1 rowid targets constraints inputs) N

/-- `Categorical.logpdf_score` (src/categorical.py:78-79). -/
noncomputable def logpdfScore (s : Categorical) : Except Err Fl :=
  .ok (calcLogpdfMarginal s.N s.counts s.alpha)

/-- `Categorical.support` (src/categorical.py:124-125). -/
def support (s : Categorical) : List Int := (List.range s.k).map fun (i : Nat) => (i : Int)

/-- `Categorical.set_hypers` (src/categorical.py:108-110). -/
noncomputable def setHypers (hypers : Dict String ℝ) : Py Categorical Unit := open Classical in do
  let a ← Py.lift (Dict.getItem hypers "alpha")
  Py.assert (0 < a)
  Py.modify fun s => { s with alpha := a }

/-- `Categorical.get_hypers` (src/categorical.py:112-113). -/
def getHypers (s : Categorical) : Dict String ℝ := [("alpha", s.alpha)]

/-- `Categorical.get_suffstats` (src/categorical.py:118-119). -/
def getSuffstats (s : Categorical) : Int × List Int := (s.N, s.counts)

/-- Fields of `Categorical.to_metadata` (src/categorical.py:81-91). -/
structure Meta where
  outputs : List Var
  inputs : List Var
  k : Nat
  N : Int
  data : Dict RowId Val
  counts : List Int
  alpha : ℝ

def toMetadata (s : Categorical) : Meta where
  outputs := s.outputs
  inputs := s.inputs
  k := s.k
  N := s.N
  data := s.data
  counts := s.counts
  alpha := s.alpha

/-- `Categorical.from_metadata` (src/categorical.py:93-101). -/
noncomputable def fromMetadata (m : Meta) : Categorical :=
  { init m.outputs m.inputs [] [] m.k with
    data := Dict.update [] m.data
    N := m.N
    counts := m.counts
    alpha := m.alpha }

/-- `Categorical.construct_hyper_grids` (src/categorical.py:127-132). -/
noncomputable def constructHyperGrids (X : List ℚ) (nGrid : Nat) : Dict String (List ℝ) :=
  let N : ℝ := if X.length > 0 then (X.length : ℝ) else 2
  [("alpha", logLinspace (1 / N) N nGrid)]

end Categorical
end Cgpm2
