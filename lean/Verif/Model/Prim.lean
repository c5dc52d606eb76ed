import Verif.Model.Iface

/-!
# The primitive classes (subclasses of `DistributionCGPM`) behind one dispatch

Python dispatches on the class of the object; here on the constructor of `Prim`.
-/

namespace Cgpm2

/-- An instance of one of src/crp.py, src/categorical.py, src/bernoulli.py, src/normal.py,
src/normal_uc.py, src/poisson.py. -/
inductive Prim
  | crp (c : Crp)
  | categorical (c : Categorical)
  | bernoulli (c : Bernoulli)
  | normal (c : Normal)
  | normalUC (c : NormalUC)
  | poisson (c : Poisson)

namespace Prim

/-- The `outputs` attribute. -/
def outputs : Prim → List Var
  | crp c => c.outputs
  | categorical c => c.outputs
  | bernoulli c => c.outputs
  | normal c => c.outputs
  | normalUC c => c.outputs
  | poisson c => c.outputs

/-- The `inputs` attribute. -/
def inputs : Prim → List Var
  | crp c => c.inputs
  | categorical c => c.inputs
  | bernoulli c => c.inputs
  | normal c => c.inputs
  | normalUC c => c.inputs
  | poisson c => c.inputs

/-- The `data` attribute. -/
def data : Prim → Dict RowId Val
  | crp c => c.data.map fun kv => (kv.1, .num ((kv.2 : Int) : ℚ))
  | categorical c => c.data
  | bernoulli c => c.data
  | normal c => c.data
  | normalUC c => c.data
  | poisson c => c.data

/-- The class of the object, `type(cgpm)`. -/
inductive Kind
  | crp | categorical | bernoulli | normal | normalUC | poisson
  deriving DecidableEq, Repr

def kind : Prim → Kind
  | crp _ => .crp
  | categorical _ => .categorical
  | bernoulli _ => .bernoulli
  | normal _ => .normal
  | normalUC _ => .normalUC
  | poisson _ => .poisson

/-- Dispatch of `observe`. -/
noncomputable def observe (rowid : RowId) (observation inputs : Dict Var Val) : Py Prim Unit
  | crp c => Py.wrap crp (Crp.observe rowid observation inputs) c
  | categorical c => Py.wrap categorical (Categorical.observe rowid observation inputs) c
  | bernoulli c => Py.wrap bernoulli (Bernoulli.observe rowid observation inputs) c
  | normal c => Py.wrap normal (Normal.observe rowid observation inputs) c
  | normalUC c => Py.wrap normalUC (NormalUC.observe rowid observation inputs) c
  | poisson c => Py.wrap poisson (Poisson.observe rowid observation inputs) c

/-- Dispatch of `unobserve`. -/
noncomputable def unobserve (rowid : RowId) : Py Prim (Dict Var Val × Dict Var Val)
  | crp c => Py.wrap crp (Crp.unobserve rowid) c
  | categorical c => Py.wrap categorical (Categorical.unobserve rowid) c
  | bernoulli c => Py.wrap bernoulli (Bernoulli.unobserve rowid) c
  | normal c => Py.wrap normal (Normal.unobserve rowid) c
  | normalUC c => Py.wrap normalUC (NormalUC.unobserve rowid) c
  | poisson c => Py.wrap poisson (Poisson.unobserve rowid) c

/-- Dispatch of `logpdf`. -/
noncomputable def logpdf (p : Prim) (rowid : RowId) (targets constraints inputs : Dict Var Val) :
    Except Err Fl :=
  match p with
  | crp c => c.logpdf rowid targets constraints inputs
  | categorical c => c.logpdf rowid targets constraints inputs
  | bernoulli c => c.logpdf rowid targets constraints inputs
  | normal c => c.logpdf rowid targets constraints inputs
  | normalUC c => c.logpdf rowid targets constraints inputs
  | poisson c => c.logpdf rowid targets constraints inputs

/-- Dispatch of `simulate`. -/
noncomputable def simulate (p : Prim) (rowid : RowId) (targets : List Var)
    (constraints inputs : Dict Var Val) (N : Option Nat) : Py Rng SimOut :=
  match p with
  | crp c => c.simulate rowid targets constraints inputs N
  | categorical c => c.simulate rowid targets constraints inputs N
  | bernoulli c => c.simulate rowid targets constraints inputs N
  | normal c => c.simulate rowid targets constraints inputs N
  | normalUC c => c.simulate rowid targets constraints inputs N
  | poisson c => c.simulate rowid targets constraints inputs N

/-- Dispatch of `logpdf_score`. -/
noncomputable def logpdfScore : Prim → Except Err Fl
  | crp c => c.logpdfScore
  | categorical c => c.logpdfScore
  | bernoulli c => c.logpdfScore
  | normal c => c.logpdfScore
  | normalUC c => c.logpdfScore
  | poisson c => c.logpdfScore

/-- Dispatch of `set_hypers`. -/
noncomputable def setHypers (hypers : Dict String ℝ) : Py Prim Unit
  | crp c => Py.wrap crp (Crp.setHypers hypers) c
  | categorical c => Py.wrap categorical (Categorical.setHypers hypers) c
  | bernoulli c => Py.wrap bernoulli (Bernoulli.setHypers hypers) c
  | normal c => Py.wrap normal (Normal.setHypers hypers) c
  | normalUC c => Py.wrap normalUC (NormalUC.setHypers hypers) c
  | poisson c => Py.wrap poisson (Poisson.setHypers hypers) c

/-- Dispatch of `set_params`: NormalUC implements it (src/normal_uc.py:129-132), the other
classes inherit the empty method (src/distribution.py:72-73). -/
noncomputable def setParams (params : Dict String ℝ) : Py Prim Unit
  | normalUC c => Py.wrap normalUC (NormalUC.setParams params) c
  | p => (.ok (), p)

/-- Dispatch of `get_hypers`. -/
def getHypers : Prim → Dict String ℝ
  | crp c => c.getHypers
  | categorical c => c.getHypers
  | bernoulli c => c.getHypers
  | normal c => c.getHypers
  | normalUC c => c.getHypers
  | poisson c => c.getHypers

/-- Dispatch of `support`, which Normal, NormalUC and Poisson do not define. -/
def support : Prim → Except Err (List Int)
  | crp c => .ok c.support
  | categorical c => .ok c.support
  | bernoulli c => .ok c.support
  | _ => .error .attributeError

/-- Dispatch of `construct_hyper_grids`. -/
noncomputable def constructHyperGrids (p : Prim) (X : List ℚ) (nGrid : Nat) :
    Dict String (List ℝ) :=
  match p with
  | crp _ => Crp.constructHyperGrids X nGrid
  | categorical _ => Categorical.constructHyperGrids X nGrid
  | bernoulli _ => Bernoulli.constructHyperGrids X nGrid
  | normal _ => Normal.constructHyperGrids X nGrid
  | normalUC _ => NormalUC.constructHyperGrids X nGrid
  | poisson _ => Poisson.constructHyperGrids X nGrid

/-- Dispatch of `to_metadata`. -/
def toMetadata : Prim → Metadata
  | crp c => .crp c.toMetadata
  | categorical c => .categorical c.toMetadata
  | bernoulli c => .bernoulli c.toMetadata
  | normal c => .normal c.toMetadata
  | normalUC c => .normalUC c.toMetadata
  | poisson c => .poisson c.toMetadata

/-- `build_cgpm` (external: import the factory, call its `from_metadata`) restricted to the
primitive factories. -/
noncomputable def fromMetadata : Metadata → Except Err Prim
  | .crp m => .ok (crp (Crp.fromMetadata m))
  | .categorical m => .ok (categorical (Categorical.fromMetadata m))
  | .bernoulli m => .ok (bernoulli (Bernoulli.fromMetadata m))
  | .normal m => (Normal.fromMetadata m).map normal
  | .normalUC m => (NormalUC.fromMetadata m).map normalUC
  | .poisson m => (Poisson.fromMetadata m).map poisson
  | _ => .error .typeError

end Prim

/-- A primitive as a CGPM. -/
noncomputable def primI : Iface Prim where
  outputs := Prim.outputs
  inputs := Prim.inputs
  observe r o i := Py.onFst (Prim.observe r o i)
  unobserve r := Py.onFst (Prim.unobserve r)
  logpdf r t c i := fun st => (st.1.logpdf r t c i, st)
  simulate r t c i n := fun st => Py.onSnd (st.1.simulate r t c i n) st
  logpdfScore := Prim.logpdfScore
  support := Prim.support
  toMetadata := Prim.toMetadata
  fromMetadata := Prim.fromMetadata

end Cgpm2
