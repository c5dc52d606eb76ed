import Verif.Py.Fl

/-!
# The random structure generator of src/sample_crosscat.py
-/

namespace Cgpm2

open Classical in
/-- `rng.choice(range(len(p)), p=p)` (external): ValueError for an empty list, a negative weight
or weights that do not sum to one; otherwise the cumulative sums are inverted at one uniform
variate. -/
noncomputable def rngChoice (p : List ℝ) : Py Rng Nat := fun rng =>
  if p ≠ [] ∧ (∀ x ∈ p, 0 ≤ x) ∧ p.sum = 1 then
    let (u, rng') := rng.uniform
    (.ok (invCdf p u), rng')
  else (.error .valueError, rng)

/-- The list of weights (src/sample_crosscat.py:65). -/
noncomputable def partitionWeights (alpha : ℝ) (partition : List (List Nat)) : List ℝ :=
  (partition.map fun block => (block.length : ℝ)) ++ [alpha]

/-- `partition[assignment].append(customer)`, after `partition.append([])` if there is no such
block (src/sample_crosscat.py:68-70). -/
def seatCustomer (partition : List (List Nat)) (assignment customer : Nat) : List (List Nat) :=
  let partition := if partition.length ≤ assignment then partition ++ [[]] else partition
  partition.modify assignment (· ++ [customer])

/-- The loop of `generate_random_partition` (src/sample_crosscat.py:64-70) over a list of
customers. -/
noncomputable def partitionLoop (alpha : ℝ) :
    List Nat → List (List Nat) → Py Rng (List (List Nat))
  | [], partition => pure partition
  | customer :: rest, partition => do
    let weights := partitionWeights alpha partition
    let assignment ← rngChoice (weights.map fun w => w / weights.sum)
    partitionLoop alpha rest (seatCustomer partition assignment customer)

/-- `generate_random_partition` (src/sample_crosscat.py:61-71). -/
noncomputable def generateRandomPartition (alpha : ℝ) (N : Nat) : Py Rng (List (List Nat)) :=
  partitionLoop alpha (List.range N) []

end Cgpm2
