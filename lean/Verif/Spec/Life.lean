import Verif.Spec.Crosscat
import Verif.Spec.CppUpdate
import Verif.Spec.RandomPartition
import Verif.Spec.Draws
import Verif.Model.EnsembleQueries

/-!
# Specification vocabulary: the life of an ensemble
-/

namespace Cgpm2.Spec
open Cgpm2.Views Cgpm2.Ensemble

/-! ## Making it -/

/-- The statistical types of columns: a class for data, and for a Categorical at least one category. -/
def ValidType (d : Dist) : Prop :=
  d.name = "bernoulli" ∨ d.name = "normal" ∨ d.name = "poisson" ∨
    (d.name = "categorical" ∧ ∃ k, d.k = some k ∧ 1 ≤ k)

/-- The primitive is of the type. -/
def OfType (d : Dist) : Prim → Prop
  | .crp _ => d.name = "crp"
  | .categorical c => d.name = "categorical" ∧ d.k = some c.k
  | .bernoulli _ => d.name = "bernoulli"
  | .normal _ => d.name = "normal"
  | .normalUC _ => False
  | .poisson _ => d.name = "poisson"

/-- Each column is made of primitives of the type that was asked for. -/
def Declared (outputs : List Var) (types : List Dist) (x : Crosscat) : Prop :=
  ∀ od ∈ outputs.zip types, (∃ p, OfColumn x od.1 p) ∧ ∀ p, OfColumn x od.1 p → OfType od.2 p

/-- The values for a column of the type: a category 0..k-1, 0 or 1, a natural number, any number; or
missing. -/
def ValueOf (d : Dist) : Val → Prop
  | .nan => True
  | .num q => (d.name = "categorical" → ∃ k i : Nat, d.k = some k ∧ i < k ∧ q = i) ∧
      (d.name = "bernoulli" → q = 0 ∨ q = 1) ∧ (d.name = "poisson" → ∃ n : Nat, q = n)

/-- The libraries do what they are for: `gamma` gives positive numbers, `simulate_crp_constrained` an
assignment of every column, and a set has each element once. -/
structure SaneOutside (env : Outside) : Prop where
  gamma : ∀ d, 0 < env.gamma d
  crp : ∀ N alpha Cd Ci g l g', env.crpConstrained N alpha Cd Ci g = (.ok l, g') → l.length = N
  unique : ∀ l, (env.unique l).Nodup ∧ ∀ a, a ∈ env.unique l ↔ a ∈ l

/-- The first `N` integers that can be drawn are different from each other and are not among the
variables. -/
def DrawsApart (N : Nat) (g : Rng) (vars : List Var) : Prop :=
  (∀ n < N, drawnInt g n ∉ vars) ∧ ∀ n < N, ∀ m < n, drawnInt g m ≠ drawnInt g n

/-! ## Using it -/

/-- The program makes a GibbsCrossCat of the CrossCat, calls methods of it that move columns among
`cols`, and returns its CrossCat. -/
def Infers (cols : List Var) (program : Cgpm 3 × Rng → Except Err (Cgpm 3 × Rng)) : Prop :=
  ∀ x g c', program (whole x, g) = .ok c' →
    ∃ ord constrained dependencies s g1 clock steps w,
      Gibbs.init ord x constrained dependencies g = (.ok s, g1) ∧
      (∀ st ∈ steps, Step.Moves cols st) ∧
      Returns ord steps ⟨(s, g1), clock⟩ w ∧ c' = (whole w.state.1.crosscat, w.state.2)

/-- Calls of methods of an ensemble. -/
inductive Request
  | observe (r : RowId) (o : Dict Var Val) (inputs : Option (Dict Var Val)) (multiprocess : Bool)
  | observeBulk (rows : List (RowId × Dict Var Val)) (multiprocess : Bool)
  | unobserve (r : RowId) (multiprocess : Bool)
  | unobserveBulk (rows : List RowId) (multiprocess : Bool)
  | transition (program : Cgpm 3 × Rng → Except Err (Cgpm 3 × Rng)) (multiprocess : Bool)
  | logpdfScore (multiprocess : Bool)
  | logpdf (r : RowId) (targets : Dict Var Val) (constraints inputs : Option (Dict Var Val))
      (multiprocess : Bool)
  | logpdfBulk (rs : List RowId) (targets : List (Dict Var Val))
      (constraints inputs : Option (List (Dict Var Val))) (multiprocess : Bool)
  | simulate (r : RowId) (targets : List Var) (constraints inputs : Option (Dict Var Val))
      (N : Option Nat) (multiprocess : Bool)
  | simulateBulk (rs : List RowId) (targets : List (List Var))
      (constraints inputs : Option (List (Dict Var Val))) (Ns : Option (List Nat)) (multiprocess : Bool)
  | simulateHeterogeneous (rs : Option (List Int)) (targets : Option (List (List Var)))
      (constraints inputs : Option (List (Dict Var Val))) (N : Option (List Nat)) (multiprocess : Bool)
  | simulateHeterogeneousBulk (rs : Option (List (List RowId))) (targets : Option (List (List (List Var))))
      (constraints inputs : Option (List (List (Dict Var Val)))) (Ns : Option (List (List Nat)))
      (multiprocess : Bool)
  | logpdfHeterogeneous (rs : Option (List Int)) (targets constraints inputs : Option (List (Dict Var Val)))
      (multiprocess : Bool)
  | logpdfHeterogeneousBulk (rs : Option (List (List RowId)))
      (targets constraints inputs : Option (List (List (Dict Var Val)))) (multiprocess : Bool)
  | sameColumn (a b : Var) (multiprocess : Bool)
  | sameColumnPairwise (outputs : List Var) (multiprocess : Bool)
  | sameRow (a : Var) (r s : RowId) (multiprocess : Bool)
  | sameRowPairwise (a : Var) (multiprocess : Bool)
  | mutualInformation (targets0 targets1 : List Var) (constraints : Option (Dict Var Val))
      (marginalize : Option (List Var)) (T N : Option Nat) (multiprocess : Bool)
  /-- `to_metadata`, and `from_metadata` with some random state; from then on the loaded ensemble is used. -/
  | reload (env : Outside) (outputs inputs : List Var) (types : List Dist) (chains : Nat) (Cd Ci : List (List Var))
      (rng : Rng)

/-- The call takes the chains `cs` to `cs'`.  Calls that change the data, inference, and loading return;
queries may return or raise. -/
def Request.Leads (cs cs' : List (Cgpm 3 × Rng)) : Request → Prop
  | .observe r o i mp => Ensemble.observe (cgpmI 3) r o i mp cs = (.ok (), cs')
  | .observeBulk rows mp =>
      Ensemble.observeBulk (cgpmI 3) (rows.map (·.1)) (rows.map (·.2)) none mp cs = (.ok (), cs')
  | .unobserve r mp => Ensemble.unobserve (cgpmI 3) r mp cs = (.ok (), cs')
  | .unobserveBulk rows mp => Ensemble.unobserveBulk (cgpmI 3) rows mp cs = (.ok (), cs')
  | .transition program mp => Ensemble.transition program mp cs = (.ok (), cs')
  | .logpdfScore mp => ∃ res, Ensemble.logpdfScore (cgpmI 3) mp cs = (res, cs')
  | .logpdf r t c i mp => ∃ res, Ensemble.logpdf (cgpmI 3) r t c i mp cs = (res, cs')
  | .logpdfBulk rs t c i mp => ∃ res, Ensemble.logpdfBulk (cgpmI 3) rs t c i mp cs = (res, cs')
  | .simulate r t c i N mp => ∃ res, Ensemble.simulate (cgpmI 3) r t c i N mp cs = (res, cs')
  | .simulateBulk rs t c i Ns mp => ∃ res, Ensemble.simulateBulk (cgpmI 3) rs t c i Ns mp cs = (res, cs')
  | .simulateHeterogeneous rs t c i N mp =>
      ∃ res, Ensemble.simulateHeterogeneous (cgpmI 3) rs t c i N mp cs = (res, cs')
  | .simulateHeterogeneousBulk rs t c i Ns mp =>
      ∃ res, Ensemble.simulateHeterogeneousBulk (cgpmI 3) rs t c i Ns mp cs = (res, cs')
  | .logpdfHeterogeneous rs t c i mp => ∃ res, Ensemble.logpdfHeterogeneous (cgpmI 3) rs t c i mp cs = (res, cs')
  | .logpdfHeterogeneousBulk rs t c i mp =>
      ∃ res, Ensemble.logpdfHeterogeneousBulk (cgpmI 3) rs t c i mp cs = (res, cs')
  | .sameColumn a b mp => ∃ res, getSameColumn a b mp cs = (res, cs')
  | .sameColumnPairwise outputs mp => ∃ res, getSameColumnPairwise outputs mp cs = (res, cs')
  | .sameRow a r s mp => ∃ res, getSameRow a r s mp cs = (res, cs')
  | .sameRowPairwise a mp => ∃ res, getSameRowPairwise a mp cs = (res, cs')
  | .mutualInformation t0 t1 c m T N mp =>
      ∃ res, Ensemble.mutualInformation (cgpmI 3) t0 t1 c m T N mp cs = (res, cs')
  | .reload env outputs inputs types chains Cd Ci rng => ∃ rng',
      fromMetadata env (toMetadata outputs inputs types chains Cd Ci cs) rng = (.ok cs', rng')

/-- The calls are made one after the other. -/
inductive Life : List Request → List (Cgpm 3 × Rng) → List (Cgpm 3 × Rng) → Prop
  | nil (cs) : Life [] cs cs
  | cons {k ks cs cs1 cs2} (h : Request.Leads cs cs1 k) (t : Life ks cs1 cs2) : Life (k :: ks) cs cs2

/-- Observations are of columns, and programs do inference on them. -/
def Request.Proper (cols : List Var) : Request → Prop
  | .observe _ o _ _ => ∀ v ∈ Dict.keys o, v ∈ cols
  | .observeBulk rows _ => ∀ ro ∈ rows, ∀ v ∈ Dict.keys ro.2, v ∈ cols
  | .transition program _ => Infers cols program
  | _ => True

/-! ## What the user keeps in mind -/

/-- The cells that were given, and the rows that were mentioned. -/
structure Ledger where
  cells : RowId → Var → Option Val
  rows : RowId → Prop

/-- Nothing was given. -/
def Ledger.empty : Ledger := ⟨fun _ _ => none, fun _ => False⟩

/-- Cells of a row are given.  A cell that is there already stays as it is. -/
def Ledger.observe (T : Ledger) (r : RowId) (o : Dict Var Val) : Ledger :=
  ⟨fun r' v => if r' = r ∧ T.cells r v = none then Dict.get? o v else T.cells r' v,
    fun r' => r' = r ∨ T.rows r'⟩

/-- A row is taken out. -/
def Ledger.unobserve (T : Ledger) (r : RowId) : Ledger :=
  ⟨fun r' v => if r' = r then none else T.cells r' v, fun r' => r' ≠ r ∧ T.rows r'⟩

/-- The ledger after a call: inference, queries, saving and loading change nothing. -/
def Request.enter (T : Ledger) : Request → Ledger
  | .observe r o _ _ => T.observe r o
  | .observeBulk rows _ => rows.foldl (fun T ro => T.observe ro.1 ro.2) T
  | .unobserve r _ => T.unobserve r
  | .unobserveBulk rows _ => rows.foldl Ledger.unobserve T
  | _ => T

/-- The ledger after some calls. -/
def ledger (calls : List Request) : Ledger := calls.foldl Request.enter .empty

/-- The chain is a CrossCat with these columns, of these types, that holds the cells of the ledger and
no other row. -/
def Keeps (outputs : List Var) (types : List Dist) (T : Ledger) (c : Cgpm 3 × Rng) : Prop :=
  ∃ x g, c = (whole x, g) ∧ IsCrosscat x ∧ (columns x).Perm outputs ∧ Declared outputs types x ∧
    (∀ g r, ∀ v ∈ outputs, heldCell (cgpmI 3) (whole x) g r v = T.cells r v) ∧ RowsAmong T.rows x

end Cgpm2.Spec
