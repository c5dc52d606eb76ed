import Verif.Model.Distribution

/-!
# src/crp.py
-/

namespace Cgpm2

/-- Attributes of `CRP` (src/crp.py:28-36).  `rng` is passed to `simulate` instead. -/
structure Crp where
  outputs : List Var
  inputs : List Var
  params : Dict String ℝ
  data : Dict RowId Int
  N : Int
  counts : Dict Int Int
  alpha : ℝ

namespace Crp

/-- `CRP.__init__` (src/crp.py:21-36). -/
noncomputable def init (outputs inputs : List Var) (hypers params : Dict String ℝ) : Crp where
  outputs := outputs
  inputs := inputs
  params := params
  data := []
  N := 0
  counts := []
  alpha := (Dict.get? hypers "alpha").getD 1

/-- `CRP.support` (src/crp.py:130-132). -/
def support (s : Crp) : List Int :=
  match pySorted (Dict.keys s.counts) with
  | [] => [0]
  | k :: ks => (k :: ks) ++ [pyMax k ks + 1]

/-- `CRP.observe` (src/crp.py:38-46). -/
def observe (rowid : RowId) (observation inputs : Dict Var Val) : Py Crp Unit := do
  let s ← Py.get
  Py.lift (observeGuard rowid (Dict.has s.data rowid) s.outputs observation inputs)
  let o ← Py.lift (firstOutput s.outputs)
  let v ← Py.lift (Dict.getItem observation o)
  let x ← Py.lift (pyInt v)
  Py.assert (x ∈ s.support)
  Py.modify fun s => { s with N := s.N + 1 }
  Py.modify fun s =>
    if Dict.has s.counts x then s else { s with counts := Dict.set s.counts x 0 }
  let s ← Py.get
  let c ← Py.lift (Dict.getItem s.counts x)
  Py.modify fun s => { s with counts := Dict.set s.counts x (c + 1) }
  Py.modify fun s => { s with data := Dict.set s.data rowid x }

/-- `CRP.unobserve` (src/crp.py:48-55). -/
def unobserve (rowid : RowId) : Py Crp (Dict Var Val × Dict Var Val) := do
  let s ← Py.get
  Py.lift (unobserveGuard (Dict.has s.data rowid))
  let x ← Py.lift (Dict.getItem s.data rowid)
  Py.modify fun s => { s with data := Dict.del s.data rowid }
  Py.modify fun s => { s with N := s.N - 1 }
  let c ← Py.lift (Dict.getItem s.counts x)
  Py.modify fun s => { s with counts := Dict.set s.counts x (c - 1) }
  Py.modify fun s => if c - 1 = 0 then { s with counts := Dict.del s.counts x } else s
  let o ← Py.lift (firstOutput s.outputs)
  pure ([(o, .num x)], [])

/-- `calc_predictive_logp` (src/crp.py:201-204). -/
noncomputable def calcPredictiveLogp (x : Int) (N : Int) (counts : Dict Int Int) (alpha : ℝ) :
    Except Err Fl := do
  let numerator : ℝ := match Dict.get? counts x with
    | some c => (c : ℝ)
    | none => alpha
  let denominator : ℝ := (N : ℝ) + alpha
  let a ← pyLog numerator
  let b ← pyLog denominator
  pure (.fin (a - b))

/-- `calc_logpdf_marginal` (src/crp.py:206-209). -/
noncomputable def calcLogpdfMarginal (N : Int) (counts : List Int) (alpha : ℝ) :
    Except Err Fl := do
  let la ← pyLog alpha
  pure (.fin (counts.length * la + (counts.map fun (c : Int) => gammaln (c : ℝ)).sum
    + gammaln alpha - gammaln (N + alpha)))

/-- `CRP.logpdf` (src/crp.py:57-73). -/
noncomputable def logpdf (s : Crp) (rowid : RowId) (targets constraints inputs : Dict Var Val) :
    Except Err Fl := do
  if inputs ≠ [] then throw .assertionError
  if constraints ≠ [] then throw .assertionError
  if Dict.keys targets ≠ s.outputs then throw .assertionError
  let o ← firstOutput s.outputs
  let v ← Dict.getItem targets o
  let x ← pyInt v
  if x ∉ s.support then
    pure .ninf
  else match Dict.get? s.data rowid with
    | none => calcPredictiveLogp x s.N s.counts s.alpha
    | some y => if y = x then pure (.fin 0) else pure .ninf

/-- One call of `CRP.simulate` (src/crp.py:75-84). -/
noncomputable def simulate1 (s : Crp) (rowid : RowId) (targets : List Var)
    (constraints inputs : Dict Var Val) : Py Rng (Dict Var Val) := do
  Py.lift (simulateGuard s.outputs targets constraints inputs)
  let o ← Py.lift (firstOutput s.outputs)
  match Dict.get? s.data rowid with
  | none =>
    let K := s.support
    let logps ← Py.lift (K.mapM fun (x : Int) => s.logpdf rowid [(o, .num x)] [] [])
    let i ← logPflipIdx logps
    pure [(o, .num ((K.getD i 0 : Int) : ℚ))]
  | some x => pure [(o, .num (x : ℚ))]

/-- `CRP.simulate`. -/
noncomputable def simulate (s : Crp) (rowid : RowId) (targets : List Var)
    (constraints inputs : Dict Var Val) (N : Option Nat) : Py Rng SimOut :=
  simulateMany (s.simulate1 rowid targets constraints inputs) N

/-- `CRP.logpdf_score` (src/crp.py:86-87). -/
noncomputable def logpdfScore (s : Crp) : Except Err Fl :=
  calcLogpdfMarginal s.N (Dict.values s.counts) s.alpha

/-- `CRP.set_hypers` (src/crp.py:114-116). -/
noncomputable def setHypers (hypers : Dict String ℝ) : Py Crp Unit := open Classical in do
  let a ← Py.lift (Dict.getItem hypers "alpha")
  Py.assert (0 < a)
  Py.modify fun s => { s with alpha := a }

/-- `CRP.get_hypers` (src/crp.py:118-119). -/
def getHypers (s : Crp) : Dict String ℝ := [("alpha", s.alpha)]

/-- `CRP.get_suffstats` (src/crp.py:124-125). -/
def getSuffstats (s : Crp) : Int × List Int := (s.N, Dict.values s.counts)

/-- `CRP.is_singleton` (src/crp.py:170-171); `counts[...]` cannot fail for a held row. -/
def isSingleton (s : Crp) (rowid : RowId) : Except Err Bool :=
  match Dict.get? s.data rowid with
  | none => .ok false
  | some x => do
    let c ← Dict.getItem s.counts x
    pure (c == 1)

/-- `CRP.gibbs_tables` (src/crp.py:151-168); `max` of no tables raises ValueError. -/
def gibbsTables (s : Crp) (rowid : RowId) (m : Nat) : Except Err (List Int) := do
  if m = 0 then throw .assertionError
  let K := pySorted (Dict.keys s.counts)
  let singleton ← s.isSingleton rowid
  let mAux := if singleton then m - 1 else m
  if mAux = 0 then pure K
  else match Dict.keys s.counts with
    | [] => throw .valueError
    | k :: ks => pure (K ++ (List.range mAux).map fun (j : Nat) => pyMax k ks + 1 + (j : Int))

/-- `CRP.gibbs_logps` (src/crp.py:136-149). -/
noncomputable def gibbsLogps (s : Crp) (rowid : RowId) (m : Nat) : Except Err (List ℝ) := do
  match Dict.get? s.data rowid with
  | none => throw .assertionError
  | some t0 =>
    if m = 0 then throw .assertionError
    let singleton ← s.isSingleton rowid
    let pAux : ℝ := s.alpha / (m : ℝ)
    let c0 ← Dict.getItem s.counts t0
    let pRowid : ℝ := if singleton then pAux else (c0 : ℝ) - 1
    let tables ← s.gibbsTables rowid m
    tables.mapM fun (t : Int) =>
      pyLog (if t = t0 then pRowid
        else match Dict.get? s.counts t with
          | none => pAux
          | some c => (c : ℝ))

/-- `CRP.to_metadata` (src/crp.py:89-98): the fields written (the factory tag is the
constructor of `Metadata`, see Verif/Model/Prim.lean). -/
structure Meta where
  outputs : List Var
  inputs : List Var
  N : Int
  data : Dict RowId Int
  counts : Dict Int Int
  alpha : ℝ

def toMetadata (s : Crp) : Meta where
  outputs := s.outputs
  inputs := s.inputs
  N := s.N
  data := s.data
  counts := s.counts
  alpha := s.alpha

/-- `CRP.from_metadata` (src/crp.py:100-107).  `OrderedDict(items)` inserts the pairs one
by one. -/
noncomputable def fromMetadata (m : Meta) : Crp :=
  { init m.outputs m.inputs [] [] with
    data := Dict.update [] m.data
    N := m.N
    counts := Dict.update [] m.counts
    alpha := m.alpha }

/-- `CRP.construct_hyper_grids` (src/crp.py:173-178); depends on the data only through its
length. -/
noncomputable def constructHyperGrids (X : List ℚ) (nGrid : Nat) : Dict String (List ℝ) :=
  let N : ℝ := if X.length > 0 then (X.length : ℝ) else 5
  [("alpha", logLinspace (1 / N) N nGrid)]

end Crp
end Cgpm2
