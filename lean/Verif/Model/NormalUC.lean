import Verif.Model.Normal

/-!
# src/normal_uc.py
-/

namespace Cgpm2

/-- Attributes of `NormalUC` (src/normal_uc.py:31-42). -/
structure NormalUC where
  outputs : List Var
  inputs : List Var
  hypers : Dict String ℝ
  params : Dict String ℝ
  data : Dict RowId Val
  N : Int
  sumX : ℚ
  sumXSq : ℚ
  mu : ℝ
  var : ℝ

namespace NormalUC

/-- `NormalUC.__init__` (src/normal_uc.py:24-43). -/
noncomputable def init (outputs inputs : List Var) (hypers params : Dict String ℝ) :
    Except Err NormalUC :=
  open Classical in
  let mu := (Dict.get? params "mu").getD 0
  let var := (Dict.get? params "var").getD 1
  if 0 < var then
    .ok { outputs := outputs, inputs := inputs, hypers := hypers, params := params, data := [],
          N := 0, sumX := 0, sumXSq := 0, mu := mu, var := var }
  else .error .assertionError

/-- `NormalUC.observe` (src/normal_uc.py:45-52). -/
def observe (rowid : RowId) (observation inputs : Dict Var Val) : Py NormalUC Unit := do
  let s ← Py.get
  Py.lift (observeGuard rowid (Dict.has s.data rowid) s.outputs observation inputs)
  let o ← Py.lift (firstOutput s.outputs)
  let x ← Py.lift (Dict.getItem observation o)
  match x with
  | .nan => pure ()
  | .num q => do
    Py.modify fun s => { s with N := s.N + 1 }
    Py.modify fun s => { s with sumX := s.sumX + q }
    Py.modify fun s => { s with sumXSq := s.sumXSq + q * q }
  Py.modify fun s => { s with data := Dict.set s.data rowid x }

/-- `NormalUC.unobserve` (src/normal_uc.py:54-61). -/
def unobserve (rowid : RowId) : Py NormalUC (Dict Var Val × Dict Var Val) := do
  let s ← Py.get
  Py.lift (unobserveGuard (Dict.has s.data rowid))
  let x ← Py.lift (Dict.getItem s.data rowid)
  Py.modify fun s => { s with data := Dict.del s.data rowid }
  match x with
  | .nan => pure ()
  | .num q => do
    Py.modify fun s => { s with N := s.N - 1 }
    Py.modify fun s => { s with sumX := s.sumX - q }
    Py.modify fun s => { s with sumXSq := s.sumXSq - q * q }
  let o ← Py.lift (firstOutput s.outputs)
  pure ([(o, x)], [])

/-- `scipy.stats.norm.logpdf(x, loc, scale)` (external). -/
noncomputable def normLogpdf (x loc scale : ℝ) : ℝ :=
  (-(((x - loc) / scale) ^ 2) / 2) - Real.log (Real.sqrt (2 * Real.pi)) - Real.log scale

/-- `NormalUC.logpdf` (src/normal_uc.py:63-68). -/
noncomputable def logpdf (s : NormalUC) (rowid : RowId)
    (targets constraints inputs : Dict Var Val) : Except Err Fl := do
  logpdfGuard (Dict.has s.data rowid) s.outputs targets constraints inputs
  let o ← firstOutput s.outputs
  let x ← Dict.getItem targets o
  match x with
  | .nan => pure (.fin 0)
  | .num q => pure (.fin (normLogpdf q s.mu (Real.sqrt s.var)))

/-- `NormalUC.simulate` (src/normal_uc.py:70-76).  Not decorated with `simulate_many`: for a
held row it returns a single sample whatever `N` is. -/
def simulate (s : NormalUC) (rowid : RowId) (targets : List Var)
    (constraints inputs : Dict Var Val) (N : Option Nat) : Py Rng SimOut := do
  Py.lift (simulateGuard s.outputs targets constraints inputs)
  let o ← Py.lift (firstOutput s.outputs)
  match Dict.get? s.data rowid with
  | some (.num q) => pure (.one [(o, .num q)])
  | _ => simulateMany (fun rng =>
      let (x, rng) := rng.draw
      (.ok [(o, .num x)], rng)) N

/-- `NormalUC.logpdf_score` (src/normal_uc.py:78-84). -/
noncomputable def logpdfScore (s : NormalUC) : Except Err Fl := do
  let lv ← pyLog s.var
  let term1 : ℝ := -((s.N : ℝ) / 2) * Normal.log2pi
  let term2 : ℝ := -((s.N : ℝ) / 2) * lv
  let term3prefactor : ℝ := -1 / (2 * s.var)
  let term3sum : ℝ := (s.sumXSq : ℝ) - 2 * s.mu * (s.sumX : ℝ) + (s.N : ℝ) * s.mu ^ 2
  pure (.fin (term1 + term2 + term3prefactor * term3sum))

/-- `NormalUC.set_hypers` (src/normal_uc.py:117-124). -/
noncomputable def setHypers (hypers : Dict String ℝ) : Py NormalUC Unit := open Classical in do
  let r ← Py.lift (Dict.getItem hypers "r")
  Py.assert (0 < r)
  let s' ← Py.lift (Dict.getItem hypers "s")
  Py.assert (0 < s')
  let nu ← Py.lift (Dict.getItem hypers "nu")
  Py.assert (0 < nu)
  let m ← Py.lift (Dict.getItem hypers "m")
  Py.modify fun s => { s with hypers := Dict.set s.hypers "m" m }
  Py.modify fun s => { s with hypers := Dict.set s.hypers "r" r }
  Py.modify fun s => { s with hypers := Dict.set s.hypers "s" s' }
  Py.modify fun s => { s with hypers := Dict.set s.hypers "nu" nu }

/-- `NormalUC.get_hypers` (src/normal_uc.py:126-127). -/
def getHypers (s : NormalUC) : Dict String ℝ := s.hypers

/-- `NormalUC.set_params` (src/normal_uc.py:129-132). -/
noncomputable def setParams (params : Dict String ℝ) : Py NormalUC Unit := open Classical in do
  let v ← Py.lift (Dict.getItem params "var")
  Py.assert (0 < v)
  let mu ← Py.lift (Dict.getItem params "mu")
  Py.modify fun s => { s with mu := mu }
  Py.modify fun s => { s with var := v }

/-- `NormalUC.get_params` (src/normal_uc.py:134-135). -/
def getParams (s : NormalUC) : Dict String ℝ := [("mu", s.mu), ("var", s.var)]

/-- Fields of `NormalUC.to_metadata` (src/normal_uc.py:86-98). -/
structure Meta where
  outputs : List Var
  inputs : List Var
  data : Dict RowId Val
  hypers : Dict String ℝ
  N : Int
  sumX : ℚ
  sumXSq : ℚ
  mu : ℝ
  var : ℝ

def toMetadata (s : NormalUC) : Meta where
  outputs := s.outputs
  inputs := s.inputs
  data := s.data
  hypers := s.hypers
  N := s.N
  sumX := s.sumX
  sumXSq := s.sumXSq
  mu := s.mu
  var := s.var

/-- `NormalUC.from_metadata` (src/normal_uc.py:100-110).  In Python the `hypers` dict is
shared between the original and the copy; here it is copied. -/
noncomputable def fromMetadata (m : Meta) : Except Err NormalUC := do
  let model ← init m.outputs m.inputs [] []
  pure { model with
    data := Dict.update [] m.data
    hypers := m.hypers
    N := m.N
    sumX := m.sumX
    sumXSq := m.sumXSq
    mu := m.mu
    var := m.var }

/-- `NormalUC.construct_hyper_grids` (src/normal_uc.py:143-145). -/
def constructHyperGrids (_X : List ℚ) (_nGrid : Nat) : Dict String (List ℝ) := []

end NormalUC
end Cgpm2
