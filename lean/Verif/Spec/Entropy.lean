import Verif.Spec.Composite
import Verif.Model.Entropy

/-!
# Specification vocabulary: mutual information queries
-/

namespace Cgpm2.Spec

/-- No variable is in both lists. -/
def Apart (l l' : List Var) : Prop := ∀ v, ¬ (v ∈ l ∧ v ∈ l')

/-- A legal query: the variables are outputs; targets, constraints and marginalised variables are
pairwise disjoint; the two target sets are equal or disjoint. -/
structure LegalMiQuery (outputs t0 t1 cs ms : List Var) : Prop where
  known : ∀ v, v ∈ t0 ∨ v ∈ t1 ∨ v ∈ cs ∨ v ∈ ms → v ∈ outputs
  tc : Apart t0 cs ∧ Apart t1 cs
  tm : Apart t0 ms ∧ Apart t1 ms
  cm : Apart cs ms
  tt : (∀ v, v ∈ t0 ↔ v ∈ t1) ∨ Apart t0 t1

/-- No block has variables from both lists among its outputs. -/
def DifferentBlocks {S : Type} (I : Iface S) (blocks : List S) (t0 t1 : List Var) : Prop :=
  ∀ b ∈ blocks, Apart (I.outputs b) t0 ∨ Apart (I.outputs b) t1

end Cgpm2.Spec
