import Verif.Spec.Data
import Verif.Model.Prim

/-!
# Specification vocabulary: what a primitive accepts and keeps
-/

namespace Cgpm2.Spec

/-- `t` is the next unused table when the tables `ts` are in use: 0 if none is, otherwise one
more than the largest. -/
def NextTable (ts : List Int) (t : Int) : Prop :=
  (ts = [] ∧ t = 0) ∨ (t - 1 ∈ ts ∧ ∀ x ∈ ts, x < t)

/-- The values an object accepts for its variable: a CRP a number whose integer part is an
occupied or the next table; a Categorical 0..k-1 or missing; a Bernoulli 0, 1 or missing; the
normals anything; a Poisson a natural number or missing. -/
def Accepts : Prim → Val → Prop
  | .crp c, .num q =>
    truncate q ∈ c.data.map Prod.snd ∨ NextTable (c.data.map Prod.snd) (truncate q)
  | .crp _, .nan => False
  | .categorical c, .num q => ∃ i : Nat, i < c.k ∧ q = i
  | .bernoulli _, .num q => q = 0 ∨ q = 1
  | .normal _, .num _ => True
  | .normalUC _, .num _ => True
  | .poisson _, .num q => ∃ n : Nat, q = n
  | _, .nan => True

/-- What is kept of an accepted value: a CRP keeps the integer part, the others the value. -/
def keptAs : Prim → Val → Val
  | .crp _, .num q => .num ((truncate q : Int) : ℚ)
  | _, v => v

/-- The names of the hyperparameters of a class, and which must be positive. -/
def hyperNames : Prim.Kind → List String
  | .crp => ["alpha"]
  | .categorical => ["alpha"]
  | .bernoulli => ["alpha", "beta"]
  | .normal => ["m", "r", "s", "nu"]
  | .normalUC => ["m", "r", "s", "nu"]
  | .poisson => ["a", "b"]

/-- All hyperparameters are present in `h`, and all but the location `m` are positive. -/
def HypersOk (k : Prim.Kind) (h : Dict String ℝ) : Prop :=
  ∀ n ∈ hyperNames k, ∃ x, Dict.get? h n = some x ∧ (n ≠ "m" → 0 < x)

/-- The two objects are of one class and agree on everything but the held rows: output variable,
hyperparameters (for NormalUC its mean and variance) and number of categories. -/
def SameModel : Prim → Prim → Prop
  | .crp a, .crp b => a.outputs = b.outputs ∧ a.alpha = b.alpha
  | .categorical a, .categorical b => a.outputs = b.outputs ∧ a.alpha = b.alpha ∧ a.k = b.k
  | .bernoulli a, .bernoulli b => a.outputs = b.outputs ∧ a.alpha = b.alpha ∧ a.beta = b.beta
  | .normal a, .normal b =>
    a.outputs = b.outputs ∧ a.m = b.m ∧ a.r = b.r ∧ a.s = b.s ∧ a.nu = b.nu
  | .normalUC a, .normalUC b => a.outputs = b.outputs ∧ a.mu = b.mu ∧ a.var = b.var
  | .poisson a, .poisson b => a.outputs = b.outputs ∧ a.a = b.a ∧ a.b = b.b
  | _, _ => False

/-- The numbers a primitive holds, in row order. -/
def held (p : Prim) : List ℚ := present (valuesOf p.data)

end Cgpm2.Spec
