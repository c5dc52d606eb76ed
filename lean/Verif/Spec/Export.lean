import Verif.Spec.CppUpdate
import Verif.Spec.CppCrosscat
import Verif.Spec.Walks

/-!
# Specification vocabulary: what the C++ engine is told about a CrossCat
-/

namespace Cgpm2.Spec
open Cgpm2.Views

/-- `sorted(set(data))`: the elements of a list, each number once, in some order. -/
def ListsSet (ordered : List Val → List Val) : Prop :=
  ∀ l, (∀ v, v ∈ ordered l ↔ v ∈ l) ∧ (Cpp.numbers (ordered l)).Nodup

/-- Every column is held by Normal primitives or by Categorical ones. -/
def Supported (x : Crosscat) : Prop :=
  ∀ o ∈ columns x, ∀ p, OfColumn x o p → p.kind = .normal ∨ p.kind = .categorical

/-- `rows` lists the rows that have a value, in order. -/
def ListsRows (x : Crosscat) (rows : List RowId) : Prop :=
  rows.Pairwise Before ∧ ∀ r, r ∈ rows ↔ HasValue x (columns x) r

/-- The code stands for the value: a missing value for itself, a number of a numerical column for
itself, and the code of a categorical column for the number that its table of codes gives. -/
def Decodes (col : Cpp.ColMeta) (code value : Val) : Prop :=
  match value with
  | .nan => code = .nan
  | .num q => (col.modeltype = .normal ∧ code = .num q) ∨
      (col.modeltype = .categorical ∧ ∃ (i : Nat) (j : Int), code = .num i ∧ q = j ∧
        Dict.get? col.valueToCode (CoreDsl.decimal i) = some (CoreDsl.decimal j))

/-- Every categorical column has a value that is not missing. -/
def HasNumbers (x : Crosscat) : Prop :=
  ∀ o ∈ columns x, ∀ p, OfColumn x o p → p.kind = .categorical →
    ∃ r, ∀ g, ∃ q, heldCell (cgpmI 3) (whole x) g r o = some (.num q)

/-- What the engine is told about the hyperparameters of a column: those of an empty primitive of it,
which is the pattern for new clusters; for a categorical column also how many different values it
has. -/
def Tells (x : Crosscat) (o : Var) : ColHypers → Prop
  | .normal mu nu r s => ∃ p, OfColumn x o p ∧ p.data = [] ∧ p.kind = .normal ∧
      Dict.get? p.getHypers "m" = some mu ∧ Dict.get? p.getHypers "nu" = some nu ∧
      Dict.get? p.getHypers "r" = some r ∧ Dict.get? p.getHypers "s" = some s
  | .categorical alpha K => ∃ p, OfColumn x o p ∧ p.data = [] ∧ p.kind = .categorical ∧
      Dict.get? p.getHypers "alpha" = some alpha ∧
      ∃ values : List ℚ, values.Nodup ∧ values.length = K ∧
        ∀ q g, q ∈ values ↔ ∃ r, heldCell (cgpmI 3) (whole x) g r o = some (.num q)

/-- The dict of `col_ensure` lists for the number of the column `c` the numbers of `block`. -/
def Lists (x : Crosscat) (d : Dict CoreDsl.Str (List Nat)) (c : Var) (block : List Var) : Prop :=
  ∀ i : Nat, (columns x)[i]? = some c → ∃ numbers, Dict.get? d (CoreDsl.decimal i) = some numbers ∧
    List.Forall₂ (fun c j => (columns x)[j]? = some c) block numbers

/-- Python enumerates the set of `0, …, n-1` in this order, as CPython does for small numbers. -/
def InOrder (unique : List Int → List Int) : Prop :=
  ∀ (l : List Int) (n : Nat), (∀ i, i ∈ l ↔ 0 ≤ i ∧ i < n) → unique l = (List.range n).map Int.ofNat

/-- The engine answers with the views and the clusters it was given. -/
def Echoes (engine : Engine) : Prop :=
  ∀ G, engine G = .ok ⟨G.xl.assignments.map Int.ofNat, G.xl.viewStates.length,
    G.xd.map fun numbers => numbers.map Int.ofNat⟩

/-- The engine answers: given a table and partitions of its columns and rows, with partitions of its
columns and rows. -/
def Sane (engine : Engine) : Prop :=
  ∀ G : Given, Partitions G.mc.nameToIdx.length G.table.length (G.xl.assignments.map Int.ofNat)
      G.xl.viewStates.length (G.xd.map fun numbers => numbers.map Int.ofNat) →
    ∃ reply, engine G = .ok reply ∧
      Partitions G.mc.nameToIdx.length G.table.length reply.assignments reply.viewStates reply.xd

end Cgpm2.Spec
