import Verif.Model.RandomAst
import Verif.Spec.CoreDsl

/-!
# Random CrossCat programs (specification)
-/

namespace Cgpm2.CoreDsl
open Views Spec

/-- The names of the hyperparameters of a distribution. -/
def hyperNames (distname : Str) : List Str :=
  if distname = "normal".toList then ["m".toList, "r".toList, "s".toList, "nu".toList]
  else if distname = "poisson".toList then ["a".toList, "b".toList]
  else ["alpha".toList]

/-- A column that a program can be made for: normal, Poisson, or categorical with at least one
category. -/
def Column.Plain (c : Column) : Prop :=
  ((c.distname = "normal".toList ∨ c.distname = "poisson".toList) ∧ c.distargs = none) ∨
  (c.distname = "categorical".toList ∧ ∃ k : Nat, 1 ≤ k ∧ c.distargs = some [("k".toList, (k : ℚ))])

/-- The hyperparameters are those of the distribution, and their values are the gamma variates from
the `i`-th draw on, with six decimals. -/
structure Drawn (gamma : Draw → ℝ) (g : Rng) (i : Nat) (d : Dist) : Prop where
  names : Dict.keys d.hypers = hyperNames d.name
  values : ∀ (j : Nat) kv, d.hypers[j]? = some kv →
    |(kv.2 : ℝ) - gamma (g (i + j))| ≤ 1 / 2000000 ∧ ∃ n : Int, kv.2 = n / 1000000

/-- The number of hyperparameters of the columns before the `o`-th. -/
def drawsBefore (schema : List Column) (o : Nat) : Nat :=
  ((schema.take o).map fun c => (hyperNames c.distname).length).sum

/-- The AST is one of the schema: the columns are numbered as in the schema and grouped by a partition
drawn from the Chinese restaurant process whose concentration is the first gamma variate; the row
dividers are numbered from `c` on; and every hyperparameter is a gamma variate of its own. -/
structure Generated (gamma : Draw → ℝ) (schema : List Column) (g : Rng) (c : Int) (ast : Ast) : Prop where
  grouped : ∃ partition, (generateRandomPartition (gamma (g 0)) schema.length fun k => g (k + 1)).1 = .ok partition ∧
    ast.map (fun v => v.2.map Dist.output) = partition.map (List.map fun b : Nat => (b : Int))
  covers : (ast.flatMap fun v => v.2.map Dist.output).Perm ((List.range schema.length).map fun b : Nat => (b : Int))
  nonempty : ∀ v ∈ ast, v.2 ≠ []
  dividers : ast.map (fun v => v.1.output) = (List.range ast.length).map fun i : Nat => c + (i : Int)
  divider : ∀ (i : Nat) v, ast[i]? = some v → v.1.name = "crp".toList ∧ v.1.distargs = none ∧
    Drawn gamma g (1 + schema.length + i) v.1
  columns : ∀ v ∈ ast, ∀ d ∈ v.2, ∃ (o : Nat) (column : Column), d.output = o ∧ schema[o]? = some column ∧
    d.name = column.distname ∧ d.distargs = column.distargs ∧
    Drawn gamma g (1 + schema.length + ast.length + drawsBefore schema o) d

end Cgpm2.CoreDsl
