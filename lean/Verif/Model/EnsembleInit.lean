import Verif.Model.Ensemble
import Verif.Model.RandomPartition
import Verif.Model.CppTransition

/-!
# src/crosscat_ensemble.py: making an ensemble, and the default inference program
-/

namespace Cgpm2.Ensemble
open Views

/-- An entry of `distributions`: the name of a class and `distargs['k']`, if there is one.  A `k` that
is not a natural number is outside the model. -/
structure Dist where
  name : String
  k : Option Nat

/-- What is outside the repository: `rng.gamma(2, 1)` as a function of the draw, `get_prng`,
`simulate_crp_constrained` on the constraints that are given, and the order in which
`set(assignments)` is enumerated. -/
structure Outside where
  gamma : Draw → ℝ
  prng : Nat → Rng
  crpConstrained : Nat → ℝ → List (List Var) → List (List Var) → Py Rng (List Int)
  unique : List Int → List Int

/-- `make_random_primitive` and `distribution_to_cgpm` (src/crosscat_ensemble.py:36-46). -/
noncomputable def makeRandomPrimitive (output : Var) (d : Dist) : Except Err Prim :=
  if d.name = "categorical" then
    match d.k with
    | some k => .ok (.categorical (Categorical.init [output] [] [] [] k))
    -- distargs['k'] (src/categorical.py:34).
    | none => .error .keyError
  else if d.name = "crp" then .ok (.crp (Crp.init [output] [] [] []))
  else if d.name = "bernoulli" then .ok (.bernoulli (Bernoulli.init [output] [] [] []))
  else if d.name = "normal" then (Normal.init [output] [] [] []).map .normal
  else if d.name = "poisson" then (Poisson.init [output] [] [] []).map .poisson
  else .error .keyError

/-- `make_random_view` (src/crosscat_ensemble.py:48-58). -/
noncomputable def makeRandomView (outputs : List Var) (distributions : List Dist) : Py Rng View := do
  let crpOutput ← randint
  let rowDivide := Prim.crp (Crp.init [(crpOutput : Int)] [] [] [])
  let baseList ← Py.lift ((outputs.zip distributions).mapM fun od => makeRandomPrimitive od.1 od.2)
  let base ← Py.lift (Product.init primI baseList)
  let view ← Py.lift (FlexMix.init rowDivide (.product base : Node Prim))
  pure (.flexMix view : Node (Node Prim))

/-- `make_random_partition` (src/crosscat_ensemble.py:60-64). -/
noncomputable def makeRandomPartition (env : Outside) (N : Nat) (alpha : ℝ) (Cd Ci : List (List Var)) :
    Py Rng (List (List Nat)) :=
  if Cd = [] ∧ Ci = [] then generateRandomPartition alpha N
  else do
    let assignments ← env.crpConstrained N alpha Cd Ci
    pure (Cpp.partitionToBlocks (env.unique assignments) assignments)

/-- `l[i]` with an index that is not negative. -/
def item {α : Type} (l : List α) (i : Nat) : Except Err α :=
  match l[i]? with
  | some a => .ok a
  | none => .error .indexError

/-- One view of the list comprehension (src/crosscat_ensemble.py:72-75). -/
noncomputable def makeBlock (outputs : List Var) (distributions : List Dist) (block : List Nat) :
    Py Rng View := do
  let os ← Py.lift (block.mapM (item outputs))
  let ds ← Py.lift (block.mapM (item distributions))
  makeRandomView os ds

/-- `rng.gamma(2, 1)` (src/crosscat_ensemble.py:68). -/
def drawAlpha (env : Outside) : Py Rng ℝ := fun g => (.ok (env.gamma g.next.1), g.next.2)

/-- `make_random_crosscat` (src/crosscat_ensemble.py:66-79), run on `get_prng(seed)`. -/
noncomputable def makeRandomCrosscat (env : Outside) (outputs : List Var) (distributions : List Dist)
    (Cd Ci : List (List Var)) : Py Rng Crosscat := do
  let alpha ← drawAlpha env
  let partition ← makeRandomPartition env outputs.length alpha Cd Ci
  let views ← Py.mapL (makeBlock outputs distributions) partition
  Py.lift (Product.init (cgpmI 2) views)

/-- A chain: the CrossCat and its random state. -/
noncomputable def makeChain (env : Outside) (outputs : List Var) (distributions : List Dist)
    (Cd Ci : List (List Var)) (seed : Nat) : Except Err (Cgpm 3 × Rng) :=
  match makeRandomCrosscat env outputs distributions Cd Ci (env.prng seed) with
  | (.ok x, g) => .ok (whole x, g)
  | (.error e, _) => .error e

/-- `CrossCatEnsemble.__init__` (src/crosscat_ensemble.py:168-185): the list of chains.
`Cd or []` and `Ci or []` are given as lists. -/
noncomputable def init (env : Outside) (outputs inputs : List Var) (distributions : List Dist)
    (chains : Nat) (Cd Ci : List (List Var)) : Py Rng (List (Cgpm 3 × Rng)) := do
  Py.assert (outputs.length = distributions.length)
  Py.assert (inputs = [])
  let seeds ← Py.mapL (fun _ => randint) (List.range chains)
  Py.lift (seeds.mapM (makeChain env outputs distributions Cd Ci))

/-- `make_default_inference_program` (src/crosscat_ensemble.py:320-327); `dependencies` is as in
`Gibbs.init`. -/
noncomputable def defaultProgram (ord : Orders) (env : Surroundings) (con : Constraints)
    (dependencies : Crosscat → Except Err Unit) (N S : Option Int) (outputs : Option (List Var)) :
    Cgpm 3 × Rng → Except Err (Cgpm 3 × Rng)
  | ((.product x : Node (Cgpm 2)), g) =>
    match Gibbs.init ord x (decide (con.dependent ≠ [] ∨ con.independent ≠ [])) (dependencies x) g with
    | (.error e, _) => .error e
    | (.ok s, g1) =>
      match Gibbs.transitionStructureCpp ord env con N S outputs (s, g1) with
      | (.error e, _) => .error e
      | (.ok _, (s', g2)) => .ok (whole s'.crosscat, g2)
  -- The constructor of GibbsCrossCat asks for crosscat.cgpms.
  | _ => .error .attributeError

end Cgpm2.Ensemble
