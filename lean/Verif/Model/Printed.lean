import Verif.Model.ChainMeta

/-!
# `render`: the AST-like representation of a CGPM (src/icgpm.py:141-154)

`__repr__` prints what `render` returns with `pprint` (external).
-/

namespace Cgpm2

/-- A sufficient statistic. -/
inductive Stat
  | int (n : Int)
  | num (q : ℚ)
  | real (x : ℝ)
  | list (l : List Int)

/-- What `render` returns.  The first entry of the list is the class; for primitives it is the name
of the class, and the other entries are the pairs named here. -/
inductive Rendering
  | prim (name : String) (outputs inputs : List Var) (distargs : Dict String Nat)
      (params hypers : Dict String ℝ) (suffstats : Dict String Stat)
  | product (cgpms : List Rendering)
  | finiteArray (cgpms : List Rendering)
  | flexibleArray (outputs inputs : List Var) (cgpms : List (Val × Rendering))
  | finiteRowMixture (rowDivide components : Rendering)
  | flexibleRowMixture (rowDivide components : Rendering)
  | chain (cgpms : List Rendering)

/-- `DistributionCGPM.render` (src/distribution.py:87-97) with `name`, `get_distargs`,
`get_params`, `get_hypers` and `get_suffstats` of the classes (src/crp.py:118-128, 181-182;
src/categorical.py:112-122, 135-136; src/bernoulli.py:115-125, 139-140; src/normal.py:134-144,
162-163; src/normal_uc.py:126-141, 148-149; src/poisson.py:121-132, 143-144). -/
def Prim.render : Prim → Rendering
  | .crp c => .prim "Crp" c.outputs c.inputs [] c.params c.getHypers
    [("N", .int c.getSuffstats.1), ("counts", .list c.getSuffstats.2)]
  | .categorical c => .prim "Categorical" c.outputs c.inputs [("k", c.k)] c.params c.getHypers
    [("N", .int c.getSuffstats.1), ("counts", .list c.getSuffstats.2)]
  | .bernoulli c => .prim "Bernoulli" c.outputs c.inputs [] c.params c.getHypers
    [("N", .int c.getSuffstats.1), ("x_sum", .int c.getSuffstats.2)]
  | .normal c => .prim "Normal" c.outputs c.inputs [] c.params c.getHypers
    [("N", .int c.getSuffstats.1), ("sum_x", .num c.getSuffstats.2.1),
      ("sum_x_sq", .num c.getSuffstats.2.2)]
  | .normalUC c => .prim "Normal_uc" c.outputs c.inputs [] c.getParams c.getHypers []
  | .poisson c => .prim "Poisson" c.outputs c.inputs [] c.params c.getHypers
    [("N", .int c.getSuffstats.1), ("sum_x", .num c.getSuffstats.2.1),
      ("sum_log_fact_x", .real c.getSuffstats.2.2)]

section
variable {S : Type} (I : Iface S) (part : S → Rendering)

/-- `Product.render` (src/product.py:57-61). -/
def Product.render (p : Product S) : Rendering := .product (p.cgpms.map part)

/-- `FiniteArray.render` (src/finite_array.py:68-72). -/
def FinArray.render (a : FinArray S) : Rendering := .finiteArray (a.cgpms.map part)

/-- `FlexibleArray.render` (src/flexible_array.py:74-80). -/
def FlexArray.render (a : FlexArray S) : Rendering :=
  .flexibleArray (a.outputs I) (a.inputs I) (a.cgpms.map fun ic => (ic.1, part ic.2))

/-- `FiniteRowMixture.render` (src/finite_rowmix.py:219-224). -/
def FinMix.render (m : FinMix S) : Rendering :=
  .finiteRowMixture m.rowDivide.render (FinArray.render part m.array)

/-- `FlexibleRowMixture.render` (src/flexible_rowmix.py:56-61). -/
def FlexMix.render (m : FlexMix S) : Rendering :=
  .flexibleRowMixture m.rowDivide.render (FlexArray.render I part m.array)

/-- `Chain.render` (src/chain.py:114-118). -/
def Chain.render (c : Chain S) : Rendering := .chain (c.cgpms.map part)

end

/-- Dispatch of `render`. -/
noncomputable def cgpmRender : (n : Nat) → Cgpm n → Rendering
  | 0, p => Prim.render p
  | _ + 1, .prim p => p.render
  | n + 1, .product p => Product.render (cgpmRender n) p
  | n + 1, .finArray a => FinArray.render (cgpmRender n) a
  | n + 1, .flexArray a => FlexArray.render (cgpmI n) (cgpmRender n) a
  | n + 1, .finMix m => FinMix.render (cgpmRender n) m
  | n + 1, .flexMix m => FlexMix.render (cgpmI n) (cgpmRender n) m

end Cgpm2
