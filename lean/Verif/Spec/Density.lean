import Verif.Spec.Table
import Verif.Spec.Prob

/-!
# Specification vocabulary: the queries `logpdf` is meant to answer
-/

namespace Cgpm2.Spec

/-- Primitives and products of such, to any depth. -/
def NoMixture : (n : Nat) → Cgpm n → Prop
  | 0, _ => True
  | _ + 1, .prim _ => True
  | n + 1, .product p => ∀ c ∈ p.cgpms, NoMixture n c
  | _ + 1, _ => False

/-- `x` is one of the clusters of the divider `d`. -/
def IsCluster (d : Prim) (x : Val) : Prop := ∃ supp k, d.support = .ok supp ∧ k ∈ supp ∧ x = .num ((k : Int) : ℚ)

/-- A value of positive density: an accepted number, or a missing value where missing values
are marginalised out (`Bernoulli` and `Poisson` do not do that); for a cluster variable one of
the clusters. -/
def Plausible : (n : Nat) → Cgpm n → Var → Val → Prop
  | 0, p, v, x => v ∈ Prim.outputs p →
    Accepts p x ∧ (x = .nan → Prim.kind p ≠ .bernoulli ∧ Prim.kind p ≠ .poisson)
  | _ + 1, .prim p, v, x => v ∈ p.outputs →
    Accepts p x ∧ (x = .nan → p.kind ≠ .bernoulli ∧ p.kind ≠ .poisson)
  | n + 1, .product p, v, x => ∀ c ∈ p.cgpms, Plausible n c v x
  | n + 1, .finMix m, v, x => (v ∈ m.rowDivide.outputs → IsCluster m.rowDivide x) ∧
    ∀ c ∈ m.array.cgpms, Plausible n c v x
  | n + 1, .flexMix m, v, x => (v ∈ m.rowDivide.outputs → IsCluster m.rowDivide x) ∧
    ∀ c ∈ m.array.base :: Dict.values m.array.cgpms, Plausible n c v x
  | _ + 1, .finArray _, _, _ => False
  | _ + 1, .flexArray _, _, _ => False

/-- A value a query may mention: anything, except that a CRP may not be asked about a missing
value, a mixture only about its clusters, and a mixture that has a mixture inside a component
only about values of positive density there. -/
def Askable : (n : Nat) → Cgpm n → Var → Val → Prop
  | 0, p, v, x => v ∈ Prim.outputs p → Prim.kind p = .crp → x ≠ .nan
  | _ + 1, .prim p, v, x => v ∈ p.outputs → p.kind = .crp → x ≠ .nan
  | n + 1, .product p, v, x => ∀ c ∈ p.cgpms, Askable n c v x
  | n + 1, .finMix m, v, x => (v ∈ m.rowDivide.outputs → IsCluster m.rowDivide x) ∧
    ∀ c ∈ m.array.cgpms, (NoMixture n c ∧ Askable n c v x) ∨ Plausible n c v x
  | n + 1, .flexMix m, v, x => (v ∈ m.rowDivide.outputs → IsCluster m.rowDivide x) ∧
    ∀ c ∈ m.array.base :: Dict.values m.array.cgpms,
      (NoMixture n c ∧ Askable n c v x) ∨ Plausible n c v x
  | _ + 1, .finArray _, _, _ => False
  | _ + 1, .flexArray _, _, _ => False

/-- The targets `t` and constraints `cs` of a query: distinct outputs, with askable values. -/
structure Query (n : Nat) (c : Cgpm n) (t cs : Dict Var Val) : Prop where
  nodup : (Dict.keys t ++ Dict.keys cs).Nodup
  out : ∀ kv ∈ t ++ cs, kv.1 ∈ (cgpmI n).outputs c
  ok : ∀ kv ∈ t ++ cs, Askable n c kv.1 kv.2

/-- The model's `logpdf` for the row, without inputs. -/
noncomputable def logpdfOf {n : Nat} (c : Cgpm n) (g : Rng) (r : RowId) (t cs : Dict Var Val) : Except Err Fl :=
  ((cgpmI n).logpdf r t cs [] (c, g)).1

/-- The constraints have positive probability. -/
def Positive {n : Nat} (c : Cgpm n) (g : Rng) (r : RowId) (cs : Dict Var Val) : Prop :=
  cs = [] ∨ Finite (logpdfOf c g r cs [])

/-- The call returned a log-probability: a number or `-inf`. -/
def ReturnsLogP (r : Except Err Fl) : Prop := ∃ x : Fl, r = .ok x ∧ x.IsLogP

/-- `c` is a mixture of rows with cluster variable `z` and the given clusters. -/
def IsMixture : {n : Nat} → Cgpm n → Var → List Int → Prop
  | _ + 1, .finMix m, z, supp => m.rowDivide.outputs = [z] ∧ m.rowDivide.support = .ok supp
  | _ + 1, .flexMix m, z, supp => m.rowDivide.outputs = [z] ∧ m.rowDivide.support = .ok supp
  | 0, _, _, _ => False
  | _ + 1, _, _, _ => False

end Cgpm2.Spec
