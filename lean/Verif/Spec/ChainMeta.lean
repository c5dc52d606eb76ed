import Verif.Model.ChainMeta
import Verif.Spec.Composite

/-!
# Specification vocabulary: the chains a program can build
-/

namespace Cgpm2.Spec

/-- A chain made by the constructor from members a program can build, after any calls (which may
raise) with any random outcomes. -/
inductive ChainBuilt {n : Nat} (networkOf : List (List Var × List Var) → Except Err Network) :
    Chain (Cgpm n) → Prop
  | construct {cs : List (Cgpm n)} {accuracy : Option Nat} {c : Chain (Cgpm n)}
      (hc : ∀ b ∈ cs, Built n b) (h : Chain.construct (cgpmI n) networkOf cs accuracy = .ok c) :
      ChainBuilt networkOf c
  | ask {c : Chain (Cgpm n)} (h : ChainBuilt networkOf c) (a : Ask) (g : Rng) :
      ChainBuilt networkOf (ask (chainI (cgpmI n) networkOf) a (c, g)).2.1

end Cgpm2.Spec
