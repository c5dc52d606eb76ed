import Verif.Spec.Held
import Verif.Spec.Density
import Verif.Spec.Chance

/-!
# Specification vocabulary: what `simulate` must return
-/

namespace Cgpm2.Spec

/-- `simulate(…, targets, N)` answered with the right number of samples (one sample for `N=None`,
else a list of `N`), each of which has exactly the targets as its keys. -/
def ExactSamples (N : Option Nat) (t : List Var) (out : SimOut) : Prop :=
  WellFormed N out ∧ (samplesOf out).length = N.getD 1 ∧
    ∀ s ∈ samplesOf out, (∀ v, v ∈ Dict.keys s ↔ v ∈ t) ∧ (Dict.keys s).Nodup

/-- The targets `t` and constraints `cs` of a call of `simulate`: at least one target, distinct
outputs, with askable values. -/
structure SimQuery (n : Nat) (c : Cgpm n) (t : List Var) (cs : Dict Var Val) : Prop where
  ne : t ≠ []
  nodup : (t ++ Dict.keys cs).Nodup
  out : ∀ v ∈ t ++ Dict.keys cs, v ∈ (cgpmI n).outputs c
  ok : ∀ kv ∈ cs, Askable n c kv.1 kv.2

/-- No primitive inside the model is a NormalUC (whose `simulate` ignores `N` on a held row). -/
def NoNormalUC : (n : Nat) → Cgpm n → Prop
  | 0, p => Prim.kind p ≠ .normalUC
  | _ + 1, .prim p => p.kind ≠ .normalUC
  | n + 1, .product p => ∀ c ∈ p.cgpms, NoNormalUC n c
  | n + 1, .finArray a => ∀ c ∈ a.cgpms, NoNormalUC n c
  | n + 1, .flexArray a => NoNormalUC n a.base ∧ ∀ kc ∈ a.cgpms, NoNormalUC n kc.2
  | n + 1, .finMix m => ∀ c ∈ m.array.cgpms, NoNormalUC n c
  | n + 1, .flexMix m => NoNormalUC n m.array.base ∧ ∀ kc ∈ m.array.cgpms, NoNormalUC n kc.2

end Cgpm2.Spec
