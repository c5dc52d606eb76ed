import Verif.Py.Base

/-!
# Specification vocabulary: running kernels in order
-/

namespace Cgpm2.Spec

/-- Call the kernels one after the other, until one raises. -/
def inOrder {σ : Type} : List (Py σ Unit) → σ → Except Err Unit × σ
  | [], s => (.ok (), s)
  | k :: ks, s =>
    match k s with
    | (.ok (), s') => inOrder ks s'
    | (.error e, s') => (.error e, s')

/-- `n` sweeps over the list. -/
def sweeps {α : Type} (n : Nat) (l : List α) : List α := (List.replicate n l).flatten

/-- The first `m` elements of the list repeated for ever. -/
def roundRobin {α : Type} (m : Nat) (l : List α) : List α := (sweeps m l).take m

end Cgpm2.Spec
