import Verif.Spec.Chance

/-!
# Specification vocabulary: partitions of the first `N` numbers
-/

namespace Cgpm2.Spec

/-- `p` lists the blocks of a partition of `0, …, N-1`: no block is empty, blocks are increasing
lists, every number below `N` is in exactly one place, and the blocks are in the order of their
least elements. -/
structure IsPartition (N : Nat) (p : List (List Nat)) : Prop where
  nonempty : ∀ b ∈ p, b ≠ []
  increasing : ∀ b ∈ p, b.Pairwise (· < ·)
  covers : p.flatten.Perm (List.range N)
  ordered : p.Pairwise fun b c => ∀ x ∈ c, ∃ y ∈ b, y < x

/-- The random state `rng` with the uniform variate of draw number `n` replaced by `u`. -/
def withUniformAt (n : Nat) (u : ℝ) (rng : Rng) : Rng := fun k =>
  if k = n then ⟨u, (rng n).x⟩ else rng k

/-- The partition `p` with `n` added to block number `i`, or as a block of its own if there is no
block `i`. -/
def joinBlock (p : List (List Nat)) (i n : Nat) : List (List Nat) :=
  if h : i < p.length then p.set i (p[i] ++ [n]) else p ++ [[n]]

end Cgpm2.Spec
