import Verif.Model.Venture
import Verif.Spec.Views
import Verif.Spec.Walks

/-!
# VentureScript programs (specification)
-/

namespace Cgpm2.Spec
open Views Venture

/-- The primitive is one the program has a maker for. -/
def HasMaker (p : Prim) : Prop := p.kind = .normal ∨ p.kind = .poisson ∨ p.kind = .categorical

/-- The call of the maker has the hyperparameters of the primitive. -/
inductive MakerOf : Prim → Maker → Prop
  | normal (p : Normal) : MakerOf (.normal p) ⟨"make_nig_normal", none, [p.m, p.r, p.s, p.nu]⟩
  | poisson (p : Poisson) : MakerOf (.poisson p) ⟨"make_gamma_poisson", none, [p.a, p.b]⟩
  | categorical (p : Categorical) :
    MakerOf (.categorical p) ⟨"make_symm_dirichlet_categorical", some p.k, [p.alpha]⟩

/-- The cluster of the row in the view. -/
noncomputable def heldCluster (v : View) (g : Rng) (r : RowId) : Option Val :=
  heldCell (cgpmI 2) v g r (((cgpmI 2).outputs v).headD 0)

/-- The parts of the program for a view: the mixture weights, the number of the mixture component of
each row, and for each column its mixture components. -/
structure Rendered (v : View) (g : Rng) (weights : List ℚ) (rows : Dict RowId Int)
    (mixtures : List (Var × List Maker)) : Prop where
  /-- every row is mentioned once -/
  all : ∀ r, r ∈ Dict.keys rows ↔ heldCluster v g r ≠ none
  once : (Dict.keys rows).Nodup
  /-- rows have the same number if they are in the same cluster -/
  same : ∀ r ∈ Dict.keys rows, ∀ s ∈ Dict.keys rows,
    (Dict.get? rows r = Dict.get? rows s ↔ heldCluster v g r = heldCluster v g s)
  /-- the weights add up to one -/
  sum : weights.sum = 1
  /-- the weight of the component of a row is the share of the rows that have it -/
  weight : ∀ r i, Dict.get? rows r = some i → ∃ n : Nat, i = n ∧
    weights[n]? = some (((Dict.values rows).count i : ℚ) / rows.length)
  /-- the columns -/
  columns : mixtures.map Prod.fst = viewColumns v
  /-- the component of a row has, for each column, the hyperparameters of the primitive that holds the
  cell of the row -/
  components : ∀ o ms, (o, ms) ∈ mixtures → ms.length = weights.length ∧
    ∀ r (n : Nat), Dict.get? rows r = some (n : Int) → ∃ maker, ms[n]? = some maker ∧
      ∀ p ∈ primsIn 2 v, p.outputs = [o] → r ∈ Dict.keys p.data → MakerOf p maker

/-- The program for the whole CrossCat: it has the parts of every view, and every column, by its name
in the schema, has one entry with its mixture components and one with the position of its view. -/
structure Scripted (x : Crosscat) (schema : List String) (g : Rng) (s : Script) : Prop where
  weights : s.weights.length = x.cgpms.length
  observes : s.observesCrp.length = x.cgpms.length
  distributionsOnce : (Dict.keys s.distributions).Nodup
  assignmentOnce : (Dict.keys s.assignment).Nodup
  view : ∀ (k : Nat) v, x.cgpms[k]? = some v → ∃ ws rows mixtures, s.weights[k]? = some ws ∧
    s.observesCrp[k]? = some rows ∧ Rendered v g ws rows mixtures ∧ ∀ o ms, (o, ms) ∈ mixtures → ∃ name,
      schema[o.toNat]? = some name ∧ Dict.get? s.distributions name = some ms ∧
      Dict.get? s.assignment name = some k

end Cgpm2.Spec
