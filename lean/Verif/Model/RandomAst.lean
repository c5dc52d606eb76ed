import Verif.Model.CoreText
import Verif.Model.RandomPartition

/-!
# The random CrossCat programs of src/sample_crosscat.py

`rng.gamma(1, 1)` (external) is a function of one draw.  `round(x, 6)` is exact.
-/

namespace Cgpm2.CoreDsl

/-- An entry of a schema: `[name, (distname, distargs)]`. -/
structure Column where
  name : String
  distname : Str
  distargs : Option (Dict Str ℚ)

/-- The random state, and the next value of the global iterator `generate_output_ast`
(src/sample_crosscat.py:27). -/
abbrev Gen := Rng × Int

/-- `rng.gamma(1,1)`. -/
def drawGamma (gamma : Draw → ℝ) : Py Gen ℝ := fun s => (.ok (gamma s.1.next.1), (s.1.next.2, s.2))

/-- `round(x, 6)` (external). -/
noncomputable def roundSix (x : ℝ) : ℚ := (round (x * 1000000) : Int) / 1000000

/-- `sample_hyperparameter` (src/sample_crosscat.py:29-31). -/
noncomputable def sampleHyperparameter (gamma : Draw → ℝ) : Py Gen ℚ := do
  let x ← drawGamma gamma
  pure (roundSix x)

/-- `generate_random_hyperparameters` (src/sample_crosscat.py:34-58). -/
noncomputable def generateHypers (gamma : Draw → ℝ) (distname : Str) : Py Gen (Dict Str ℚ) :=
  if distname = "normal".toList then do
    let m ← sampleHyperparameter gamma
    let r ← sampleHyperparameter gamma
    let s ← sampleHyperparameter gamma
    let nu ← sampleHyperparameter gamma
    pure [("m".toList, m), ("r".toList, r), ("s".toList, s), ("nu".toList, nu)]
  else if distname = "categorical".toList then do
    let alpha ← sampleHyperparameter gamma
    pure [("alpha".toList, alpha)]
  else if distname = "poisson".toList then do
    let a ← sampleHyperparameter gamma
    let b ← sampleHyperparameter gamma
    pure [("a".toList, a), ("b".toList, b)]
  else if distname = "crp".toList then do
    let alpha ← sampleHyperparameter gamma
    pure [("alpha".toList, alpha)]
  else Py.throw .assertionError

/-- `next(generate_output_ast)`: the iterator ends at a million. -/
def nextOutput : Py Gen Int := fun s =>
  if s.2 < 1000000 then (.ok s.2, (s.1, s.2 + 1)) else (.error .stopIteration, s)

/-- `generate_random_row_divider` (src/sample_crosscat.py:74-79). -/
noncomputable def generateRowDivider (gamma : Draw → ℝ) : Py Gen Dist := do
  let output ← nextOutput
  let hypers ← generateHypers gamma "crp".toList
  pure ⟨output, "crp".toList, none, hypers⟩

/-- `[generate_random_row_divider(rng) for _i in partition]` (src/sample_crosscat.py:86). -/
noncomputable def generateRowDividers (gamma : Draw → ℝ) : List (List Nat) → Py Gen (List Dist)
  | [] => pure []
  | _ :: rest => do
    let d ← generateRowDivider gamma
    let ds ← generateRowDividers gamma rest
    pure (d :: ds)

/-- The list of primitives (src/sample_crosscat.py:87-90), enumerated from `output`. -/
noncomputable def generatePrimitives (gamma : Draw → ℝ) : Nat → List Column → Py Gen (List Dist)
  | _, [] => pure []
  | output, column :: rest => do
    let hypers ← generateHypers gamma column.distname
    let ds ← generatePrimitives gamma (output + 1) rest
    pure (⟨output, column.distname, column.distargs, hypers⟩ :: ds)

/-- `primitives[b]`. -/
def primitiveAt (primitives : List Dist) (b : Nat) : Except Err Dist :=
  match primitives[b]? with
  | some d => .ok d
  | none => .error .indexError

/-- `[[row_divider, [primitives[b] for b in block]] for row_divider, block in zip(…)]`
(src/sample_crosscat.py:91-94). -/
def assembleAst (primitives : List Dist) : List (Dist × List Nat) → Except Err Ast
  | [] => .ok []
  | (divider, block) :: rest => do
    let ds ← block.mapM (primitiveAt primitives)
    let views ← assembleAst primitives rest
    pure ((divider, ds) :: views)

/-- `generate_random_partition(partition_alpha, len(distributions), rng)` (src/sample_crosscat.py:85). -/
noncomputable def drawPartition (alpha : ℝ) (n : Nat) : Py Gen (List (List Nat)) := fun s =>
  let (r, g) := generateRandomPartition alpha n s.1
  (r, (g, s.2))

/-- `generate_random_ast` (src/sample_crosscat.py:81-94). -/
noncomputable def generateAst (gamma : Draw → ℝ) (schema : List Column) : Py Gen Ast := do
  let alpha ← drawGamma gamma
  let partition ← drawPartition alpha schema.length
  let dividers ← generateRowDividers gamma partition
  let primitives ← generatePrimitives gamma 0 schema
  Py.lift (assembleAst primitives (dividers.zip partition))

end Cgpm2.CoreDsl
