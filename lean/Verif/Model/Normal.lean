import Mathlib.Analysis.Real.Pi.Bounds
import Verif.Model.Distribution

/-!
# src/normal.py
-/

namespace Cgpm2

/-- Attributes of `Normal` (src/normal.py:34-46). -/
structure Normal where
  outputs : List Var
  inputs : List Var
  params : Dict String ℝ
  data : Dict RowId Val
  N : Int
  sumX : ℚ
  sumXSq : ℚ
  m : ℝ
  r : ℝ
  s : ℝ
  nu : ℝ

namespace Normal

/-- `Normal.__init__` (src/normal.py:27-49); the assertions make it partial. -/
noncomputable def init (outputs inputs : List Var) (hypers params : Dict String ℝ) :
    Except Err Normal :=
  open Classical in
  let m := (Dict.get? hypers "m").getD 0
  let r := (Dict.get? hypers "r").getD 1
  let s := (Dict.get? hypers "s").getD 1
  let nu := (Dict.get? hypers "nu").getD 1
  if 0 < s ∧ 0 < r ∧ 0 < nu then
    .ok { outputs := outputs, inputs := inputs, params := params, data := [], N := 0,
          sumX := 0, sumXSq := 0, m := m, r := r, s := s, nu := nu }
  else .error .assertionError

/-- `Normal.observe` (src/normal.py:51-58). -/
def observe (rowid : RowId) (observation inputs : Dict Var Val) : Py Normal Unit := do
  let s ← Py.get
  Py.lift (observeGuard rowid (Dict.has s.data rowid) s.outputs observation inputs)
  let o ← Py.lift (firstOutput s.outputs)
  let x ← Py.lift (Dict.getItem observation o)
  match x with
  | .nan => pure ()
  | .num q => do
    Py.modify fun s => { s with N := s.N + 1 }
    Py.modify fun s => { s with sumX := s.sumX + q }
    Py.modify fun s => { s with sumXSq := s.sumXSq + q * q }
  Py.modify fun s => { s with data := Dict.set s.data rowid x }

/-- `Normal.unobserve` (src/normal.py:60-67). -/
def unobserve (rowid : RowId) : Py Normal (Dict Var Val × Dict Var Val) := do
  let s ← Py.get
  Py.lift (unobserveGuard (Dict.has s.data rowid))
  let x ← Py.lift (Dict.getItem s.data rowid)
  Py.modify fun s => { s with data := Dict.del s.data rowid }
  match x with
  | .nan => pure ()
  | .num q => do
    Py.modify fun s => { s with N := s.N - 1 }
    Py.modify fun s => { s with sumX := s.sumX - q }
    Py.modify fun s => { s with sumXSq := s.sumXSq - q * q }
  let o ← Py.lift (firstOutput s.outputs)
  pure ([(o, x)], [])

/-- `LOG2 + LOGPI` (src/normal.py:20-22). -/
noncomputable def log2pi : ℝ := Real.log 2 + Real.log Real.pi

/-- `calc_log_Z` (src/normal.py:182-188). -/
noncomputable def calcLogZ (r s nu : ℝ) : Except Err ℝ := do
  let lr ← pyLog r
  let ls ← pyLog s
  let lg ← pyLgamma (nu / 2)
  pure (((nu + 1) / 2) * Real.log 2 + (1/2) * Real.log Real.pi - (1/2) * lr - (nu / 2) * ls + lg)

/-- `posterior_hypers` (src/normal.py:190-197), returning `(rn, sn, nun)`; `mn` is only used
by the sampler. -/
noncomputable def posteriorHypers (N : ℝ) (sumX sumXSq m r s nu : ℝ) : ℝ × ℝ × ℝ :=
  open Classical in
  let rn := r + N
  let nun := nu + N
  let mn := (r * m + sumX) / rn
  let sn := s + sumXSq + r * m * m - rn * mn * mn
  let sn := if sn = 0 then s else sn
  (rn, sn, nun)

/-- `calc_predictive_logp` (src/normal.py:199-204). -/
noncomputable def calcPredictiveLogp (x N sumX sumXSq m r s nu : ℝ) : Except Err Fl := do
  let (rn, sn, nun) := posteriorHypers N sumX sumXSq m r s nu
  let (rm, sm, num) := posteriorHypers (N + 1) (sumX + x) (sumXSq + x * x) m r s nu
  let ZN ← calcLogZ rn sn nun
  let ZM ← calcLogZ rm sm num
  pure (.fin (-(1/2) * log2pi + ZM - ZN))

/-- `calc_logpdf_marginal` (src/normal.py:206-211). -/
noncomputable def calcLogpdfMarginal (N sumX sumXSq m r s nu : ℝ) : Except Err Fl := do
  let (rn, sn, nun) := posteriorHypers N sumX sumXSq m r s nu
  let Z0 ← calcLogZ r s nu
  let ZN ← calcLogZ rn sn nun
  pure (.fin (-(N / 2) * log2pi + ZN - Z0))

/-- `Normal.logpdf` (src/normal.py:69-75). -/
noncomputable def logpdf (s : Normal) (rowid : RowId)
    (targets constraints inputs : Dict Var Val) : Except Err Fl := do
  logpdfGuard (Dict.has s.data rowid) s.outputs targets constraints inputs
  let o ← firstOutput s.outputs
  let x ← Dict.getItem targets o
  match x with
  | .nan => pure (.fin 0)
  | .num q => calcPredictiveLogp q s.N s.sumX s.sumXSq s.m s.r s.s s.nu

/-- One call of `Normal.simulate` (src/normal.py:77-86).  The three draws (`rho`, `mu`, `x`)
consume three entries of the stream; the value of the last one is the sample. -/
def simulate1 (s : Normal) (rowid : RowId) (targets : List Var)
    (constraints inputs : Dict Var Val) : Py Rng (Dict Var Val) := do
  Py.lift (simulateGuard s.outputs targets constraints inputs)
  let o ← Py.lift (firstOutput s.outputs)
  match Dict.get? s.data rowid with
  | some (.num q) => pure [(o, .num q)]
  | _ => fun rng =>
    let (_rho, rng) := rng.draw
    let (_mu, rng) := rng.draw
    let (x, rng) := rng.draw
    (.ok [(o, .num x)], rng)

/-- `Normal.simulate`. -/
def simulate (s : Normal) (rowid : RowId) (targets : List Var)
    (constraints inputs : Dict Var Val) (N : Option Nat) : Py Rng SimOut :=
  simulateMany (s.simulate1 rowid targets constraints inputs) N

/-- `Normal.logpdf_score` (src/normal.py:88-90). -/
noncomputable def logpdfScore (s : Normal) : Except Err Fl :=
  calcLogpdfMarginal s.N s.sumX s.sumXSq s.m s.r s.s s.nu

/-- `Normal.set_hypers` (src/normal.py:125-132). -/
noncomputable def setHypers (hypers : Dict String ℝ) : Py Normal Unit := open Classical in do
  let r ← Py.lift (Dict.getItem hypers "r")
  Py.assert (0 < r)
  let s' ← Py.lift (Dict.getItem hypers "s")
  Py.assert (0 < s')
  let nu ← Py.lift (Dict.getItem hypers "nu")
  Py.assert (0 < nu)
  let m ← Py.lift (Dict.getItem hypers "m")
  Py.modify fun s => { s with m := m }
  Py.modify fun s => { s with r := r }
  Py.modify fun s => { s with s := s' }
  Py.modify fun s => { s with nu := nu }

/-- `Normal.get_hypers` (src/normal.py:134-135). -/
def getHypers (s : Normal) : Dict String ℝ :=
  [("m", s.m), ("r", s.r), ("s", s.s), ("nu", s.nu)]

/-- `Normal.get_suffstats` (src/normal.py:140-141). -/
def getSuffstats (s : Normal) : Int × ℚ × ℚ := (s.N, s.sumX, s.sumXSq)

/-- Fields of `Normal.to_metadata` (src/normal.py:92-105). -/
structure Meta where
  outputs : List Var
  inputs : List Var
  N : Int
  data : Dict RowId Val
  sumX : ℚ
  sumXSq : ℚ
  m : ℝ
  r : ℝ
  s : ℝ
  nu : ℝ

def toMetadata (s : Normal) : Meta where
  outputs := s.outputs
  inputs := s.inputs
  N := s.N
  data := s.data
  sumX := s.sumX
  sumXSq := s.sumXSq
  m := s.m
  r := s.r
  s := s.s
  nu := s.nu

/-- `Normal.from_metadata` (src/normal.py:107-118); the constructor is called without hypers
(whose defaults satisfy its assertions) and every field is then overwritten. -/
noncomputable def fromMetadata (m : Meta) : Except Err Normal := do
  let model ← init m.outputs m.inputs [] []
  pure { model with
    data := Dict.update [] m.data
    N := m.N
    sumX := m.sumX
    sumXSq := m.sumXSq
    m := m.m
    r := m.r
    s := m.s
    nu := m.nu }

/-- `numpy.var(X)` of a non-empty list (external): mean squared deviation. -/
noncomputable def npVar (X : List ℚ) : ℝ :=
  let n : ℝ := X.length
  let mean : ℝ := (X.map fun (q : ℚ) => (q : ℝ)).sum / n
  (X.map fun (q : ℚ) => ((q : ℝ) - mean) ^ 2).sum / n

/-- `Normal.construct_hyper_grids` (src/normal.py:146-159). -/
noncomputable def constructHyperGrids (X : List ℚ) (nGrid : Nat) : Dict String (List ℝ) :=
  let N : ℝ := if X.length > 0 then (X.length : ℝ) else 5
  let minX : ℚ := match X with | [] => 0 | x :: xs => xs.foldl min x
  let maxX : ℚ := match X with | [] => 1 | x :: xs => xs.foldl max x
  let ssqdev : ℝ := if X.length > 0 then npVar X * N + 1 else 1
  [("m", linspace (minX : ℝ) ((maxX : ℝ) + 5) nGrid),
   ("r", logLinspace (1 / N) N nGrid),
   ("s", logLinspace (ssqdev / 100) ssqdev nGrid),
   ("nu", logLinspace 1 N nGrid)]

end Normal
end Cgpm2
