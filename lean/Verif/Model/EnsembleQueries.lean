import Verif.Model.EnsembleInit
import Verif.Model.Entropy

/-!
# src/crosscat_ensemble.py: one query per chain, queries about structure, saving and loading
-/

namespace Cgpm2.Ensemble
open Views

section
variable {S : Type}

/-- `_evaluate2` (src/crosscat_ensemble.py:100-101): the method, applied to the object and the
arguments. -/
def evaluate2 {α β : Type} (method : β → Py (S × Rng) α) (args : β) : Py (S × Rng) α := method args

/-- `_evaluate2_bulk` (src/crosscat_ensemble.py:103-105).  No method of the ensemble uses it. -/
def evaluate2Bulk {α : Type} (method : List Arg → Py (S × Rng) α) (args : List (Option (List Arg))) :
    Py (S × Rng) (List α) := do
  let argsList ← Py.lift (makeArgsList args)
  collectEach method argsList

/-- `CrossCatEnsemble.evaluate` (src/crosscat_ensemble.py:369-371). -/
def evaluateAll {α β : Type} (f : β → Py (S × Rng) α) (fArgs : β) (multiprocess : Bool) :
    Py (List (S × Rng)) (List α) :=
  toAll multiprocess (evaluate2 f fArgs)

variable (I : Iface S)

/-- `CrossCatEnsemble.mutual_information` (src/crosscat_ensemble.py:362-367). -/
noncomputable def mutualInformation (targets0 targets1 : List Var) (constraints : Option (Dict Var Val))
    (marginalize : Option (List Var)) (T N : Option Nat) (multiprocess : Bool) :
    Py (List (S × Rng)) (List (Fl × Fl)) :=
  toAll multiprocess (evaluate2 (fun (_ : Unit) =>
    Entropy.mutualInformation I targets0 targets1 constraints marginalize T N) ())

/-- `CrossCatEnsemble.simulate_heterogeneous` (src/crosscat_ensemble.py:271-288).  A row id `None`
in the list is the same as no list of row ids for that chain. -/
def simulateHeterogeneous (rowid : Option (List Int)) (targets : Option (List (List Var)))
    (constraints inputs : Option (List (Dict Var Val))) (N : Option (List Nat)) (multiprocess : Bool) :
    Py (List (S × Rng)) (List SimOut) := fun cs =>
  match (do
    let rs ← perChain cs.length rowid
    let ts ← perChain cs.length targets
    let ks ← perChain cs.length constraints
    let is ← perChain cs.length inputs
    let ns ← perChain cs.length N
    pure ((List.range cs.length).map fun i =>
      evaluate (callSimulate I) [ofRow (rs.getD i none), ((ts.getD i none).map .vars).getD .none,
        ((ks.getD i none).map .dict).getD .none, ((is.getD i none).map .dict).getD .none,
        ((ns.getD i none).map .count).getD .none])
    : Except Err _) with
  | .error e => (.error e, cs)
  | .ok jobs => mapper multiprocess jobs cs

/-- `CrossCatEnsemble.simulate_heterogeneous_bulk` (src/crosscat_ensemble.py:271-283, 290-293): a list
of queries per chain. -/
def simulateHeterogeneousBulk (rowid : Option (List (List RowId))) (targets : Option (List (List (List Var))))
    (constraints inputs : Option (List (List (Dict Var Val)))) (Ns : Option (List (List Nat)))
    (multiprocess : Bool) : Py (List (S × Rng)) (List (List SimOut)) := fun cs =>
  match (do
    let rs ← perChain cs.length rowid
    let ts ← perChain cs.length targets
    let ks ← perChain cs.length constraints
    let is ← perChain cs.length inputs
    let ns ← perChain cs.length Ns
    pure ((List.range cs.length).map fun i =>
      evaluateBulk (callSimulate I) [(rs.getD i none).map fun l => l.map ofRow,
        (ts.getD i none).map fun l => l.map .vars, (ks.getD i none).map fun l => l.map .dict,
        (is.getD i none).map fun l => l.map .dict, (ns.getD i none).map fun l => l.map .count])
    : Except Err _) with
  | .error e => (.error e, cs)
  | .ok jobs => mapper multiprocess jobs cs

/-- `CrossCatEnsemble.logpdf_heterogeneous_bulk` (src/crosscat_ensemble.py:295-306, 313-316): a list of
queries per chain. -/
def logpdfHeterogeneousBulk (rowid : Option (List (List RowId))) (targets constraints inputs :
    Option (List (List (Dict Var Val)))) (multiprocess : Bool) : Py (List (S × Rng)) (List (List Fl)) := fun cs =>
  match (do
    let rs ← perChain cs.length rowid
    let ts ← perChain cs.length targets
    let ks ← perChain cs.length constraints
    let is ← perChain cs.length inputs
    pure ((List.range cs.length).map fun i =>
      evaluateBulk (callLogpdf I) [(rs.getD i none).map fun l => l.map ofRow,
        (ts.getD i none).map fun l => l.map .dict, (ks.getD i none).map fun l => l.map .dict,
        (is.getD i none).map fun l => l.map .dict])
    : Except Err _) with
  | .error e => (.error e, cs)
  | .ok jobs => mapper multiprocess jobs cs

end

/-! ## Structure -/

/-- The Product that `crosscat.output_to_index` and `crosscat.cgpms` ask for
(src/crosscat_ensemble.py:128, 133-134). -/
def asProduct : Cgpm 3 → Except Err Crosscat
  | (.product x : Node (Cgpm 2)) => .ok x
  | _ => .error .attributeError

/-- A question about the structure of a chain. -/
def structural {α : Type} (f : Crosscat → Except Err α) : Py (Cgpm 3 × Rng) α := fun c =>
  (asProduct c.1 >>= f, c)

/-- `CrossCatEnsemble.get_same_assignment_column` (src/crosscat_ensemble.py:336-340). -/
noncomputable def getSameColumn (output0 output1 : Var) (multiprocess : Bool) :
    Py (List (Cgpm 3 × Rng)) (List Bool) :=
  toAll multiprocess (evaluate2 (fun oo : Var × Var =>
    structural fun x => sameColumn (cgpmI 2) x oo.1 oo.2) (output0, output1))

/-- `CrossCatEnsemble.get_same_assignment_column_pairwise` (src/crosscat_ensemble.py:342-347); `outputs`
are `self.outputs`.  The result is kept as a list of matrices. -/
noncomputable def getSameColumnPairwise (outputs : List Var) (multiprocess : Bool) :
    Py (List (Cgpm 3 × Rng)) (List Mat) :=
  toAll multiprocess (evaluate2 (fun os : List Var =>
    structural fun x => sameColumnPairwise (cgpmI 2) x os) outputs)

/-- `CrossCatEnsemble.get_same_assignment_row` (src/crosscat_ensemble.py:349-353). -/
noncomputable def getSameRow (output : Var) (rowid0 rowid1 : RowId) (multiprocess : Bool) :
    Py (List (Cgpm 3 × Rng)) (List Bool) :=
  toAll multiprocess (evaluate2 (fun orr : Var × RowId × RowId =>
    structural fun x => sameRow (S := Cgpm 1) (cgpmI 2) x orr.1 orr.2.1 orr.2.2) (output, rowid0, rowid1))

/-- `CrossCatEnsemble.get_same_assignment_row_pairwise` (src/crosscat_ensemble.py:355-360).  The result is
kept as a list of matrices. -/
noncomputable def getSameRowPairwise (output : Var) (multiprocess : Bool) :
    Py (List (Cgpm 3 × Rng)) (List Mat) :=
  toAll multiprocess (evaluate2 (fun o : Var =>
    structural fun x => sameRowPairwise (S := Cgpm 1) (cgpmI 2) x o) output)

/-! ## Saving and loading -/

/-- What `to_metadata` makes (src/crosscat_ensemble.py:375-385). -/
structure Saved where
  chains : Nat
  outputs : List Var
  inputs : List Var
  distributions : List Dist
  Cd : List (List Var)
  Ci : List (List Var)
  cgpms : List Metadata

/-- `CrossCatEnsemble.to_metadata` (src/crosscat_ensemble.py:375-385), of an ensemble made with the given
arguments that has the chains `cs`. -/
noncomputable def toMetadata (outputs inputs : List Var) (distributions : List Dist) (chains : Nat)
    (Cd Ci : List (List Var)) (cs : List (Cgpm 3 × Rng)) : Saved where
  chains := chains
  outputs := outputs
  inputs := inputs
  distributions := distributions
  Cd := Cd
  Ci := Ci
  cgpms := cs.map fun c => (cgpmI 3).toMetadata c.1

/-- `CrossCatEnsemble.from_metadata` (src/crosscat_ensemble.py:388-400), in several processes: each worker
gets a copy of the random state.  An ensemble is made first, and its chains are thrown away.  In one process
(multiprocess=0) the chains would share one random state, which is outside the model. -/
noncomputable def fromMetadata (env : Outside) (m : Saved) : Py Rng (List (Cgpm 3 × Rng)) := do
  let _ ← init env m.outputs m.inputs m.distributions m.chains m.Cd m.Ci
  let rng ← Py.get
  Py.lift (m.cgpms.mapM fun blob => do
    let c ← (cgpmI 3).fromMetadata blob
    pure (c, rng))

end Cgpm2.Ensemble
