import Verif.Lemmas.ChainMeta
import Verif.Lemmas.ConcreteTower
import Verif.Lemmas.ConcreteDensity
import Verif.Lemmas.ConcreteTable

/-!
# C120 Saving and loading a chain, and the purity of its queries

`networkOf` is what `cgpm.network.helpers` computes from the outputs and inputs of the members; it
may be any function.
-/

namespace Cgpm2

namespace Concrete

/-- The network of members none of which has a parent. -/
def noParents (l : List (List Var × List Var)) : Except Err Network :=
  if (l.flatMap Prod.fst).Nodup then .ok ⟨List.range l.length, fun _ _ => []⟩ else .error .valueError

/-- Two coins, variables 6 and 5. -/
noncomputable def coinMembers : List (Cgpm 0) :=
  [(.bernoulli (Bernoulli.init [6] [] [] []) : Prim), (.bernoulli (Bernoulli.init [5] [] [] []) : Prim)]

/-- Two coins in a chain of accuracy 3. -/
noncomputable def coinChain : Chain (Cgpm 0) := ⟨coinMembers, 3, ⟨[0, 1], fun _ _ => []⟩⟩

theorem coinChain_construct : Chain.construct (cgpmI 0) noParents coinMembers (some 3) = .ok coinChain := by
  have e : noParents (coinMembers.map (ports (cgpmI 0))) = .ok ⟨[0, 1], fun _ _ => []⟩ := by
    change (if ([6, 5] : List Var).Nodup then _ else _) = _
    rw [if_pos (by decide)]
    rfl
  rw [Chain.construct, e]
  rfl

end Concrete

namespace Props
open Spec

variable {n : Nat} {networkOf : List (List Var × List Var) → Except Err Network}

/-- `from_metadata(to_metadata())` succeeds and gives the same chain: the same accuracy, the same
network, the same members in the same order, except for the user-supplied params of primitives. -/
theorem C120_round_trip {c : Chain (Cgpm n)} (h : ChainBuilt networkOf c) :
    (chainI (cgpmI n) networkOf).fromMetadata ((chainI (cgpmI n) networkOf).toMetadata c) =
      .ok ⟨c.cgpms.map (withoutParams n), c.accuracy, c.net⟩ := by
  obtain ⟨A, hA⟩ := chainBuilt_E h
  rw [← funext (strip_eq n)]
  exact chain_clone (cgpmLaws n) hA

/-- Every later sequence of calls, with any random state, is answered by the copy as by the
original. -/
theorem C120_same_answers {c c' : Chain (Cgpm n)} (h : ChainBuilt networkOf c)
    (hc : (chainI (cgpmI n) networkOf).fromMetadata ((chainI (cgpmI n) networkOf).toMetadata c) =
      .ok c') (as : List Ask) (g : Rng) :
    answers (chainI (cgpmI n) networkOf) as (c', g) =
      answers (chainI (cgpmI n) networkOf) as (c, g) := by
  obtain ⟨A, hA⟩ := chainBuilt_E h
  have := (chain_clone (cgpmLaws n) hA).symm.trans hc
  cases this
  exact (chain_answers_E (cgpmLaws n) as (chainE_strip (cgpmLaws n) hA) g).symm

/-- After a query of a chain, every later sequence of calls, with any random state, is answered as
if the query had not been made. -/
theorem C120_queries {c : Chain (Cgpm n)} (h : ChainBuilt networkOf c) {q : Ask} (hq : q.IsQuery)
    (g g' : Rng) (as : List Ask) :
    answers (chainI (cgpmI n) networkOf) as
        ((ask (chainI (cgpmI n) networkOf) q (c, g)).2.1, g') =
      answers (chainI (cgpmI n) networkOf) as (c, g') := by
  obtain ⟨A, hA⟩ := chainBuilt_E h
  exact (chain_answers_E (cgpmLaws n) as (chain_query_E (cgpmLaws n) hq hA g) g').symm

/-- A chain of two coins of accuracy 3 after a row was observed, and a query of it. -/
example (g : Rng) : ∃ q : Ask, q.IsQuery ∧ ChainBuilt Concrete.noParents
    (ask (chainI (cgpmI 0) Concrete.noParents)
      (.observe (some 0) [(6, .num 1), (5, .num 0)] []) (Concrete.coinChain, g)).2.1 := by
  refine ⟨.simulate none [5] [(6, .num 1)] [] (some 4), trivial, .ask (.construct ?_
    Concrete.coinChain_construct) _ _⟩
  intro b hb
  rcases List.mem_cons.1 hb with rfl | hb
  · exact .prim0 Concrete.bern6_legally
  · rw [List.mem_singleton.1 hb]
    exact .prim0 Concrete.bern0_legally

end Props
end Cgpm2
