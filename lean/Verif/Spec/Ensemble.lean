import Verif.Py.Base

/-!
# Specification vocabulary: calls one after the other, and 0/1 matrices
-/

namespace Cgpm2.Spec

/-- The calls are made one after the other, the first that raises ends it. -/
def oneByOne {A S R : Type} (call : A → Py S R) : List A → S → Except Err (List R) × S
  | [], s => (.ok [], s)
  | a :: rest, s =>
    match call a s with
    | (.error e, s') => (.error e, s')
    | (.ok r, s') =>
      match oneByOne call rest s' with
      | (.error e, s'') => (.error e, s'')
      | (.ok rs, s'') => (.ok (r :: rs), s'')

/-- The matrix of an equivalence relation on `0, …, n-1`: its entries are 0 and 1, those on the
diagonal are 1, it is symmetric, and its 1-entries form a transitive relation. -/
def EquivalenceMatrix (n : Nat) (entry : Nat → Nat → ℚ) : Prop :=
  (∀ i < n, ∀ j < n, entry i j = 0 ∨ entry i j = 1) ∧ (∀ i < n, entry i i = 1) ∧
  (∀ i < n, ∀ j < n, entry i j = entry j i) ∧
  ∀ i < n, ∀ j < n, ∀ k < n, entry i j = 1 → entry j k = 1 → entry i k = 1

end Cgpm2.Spec
