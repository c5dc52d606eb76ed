import Verif.Model.CoreEmbedded
import Verif.Spec.Conversion

/-!
# Specification vocabulary: the Core DSL
-/

namespace Cgpm2.CoreDsl
open Views Conversion Spec

/-- A word: letters and underscores. -/
def Word (k : Str) : Prop := k ≠ [] ∧ ∀ c ∈ k, c.isAlpha = true ∨ c = '_'

instance (k : Str) : Decidable (Word k) := inferInstanceAs (Decidable (_ ∧ _))

/-- A dict that can be written: different words for keys. -/
def Writable (d : Dict Str ℚ) : Prop := (Dict.keys d).Nodup ∧ ∀ k ∈ Dict.keys d, Word k

/-- A distribution that can be written. -/
structure Dist.Writable (d : Dist) : Prop where
  name : Word d.name
  distargs : CoreDsl.Writable (d.distargs.getD [])
  hypers : CoreDsl.Writable d.hypers

/-- A view that can be written has at least one distribution. -/
structure ViewWritable (v : CoreDsl.Dist × List CoreDsl.Dist) : Prop where
  divide : v.1.Writable
  ne : v.2 ≠ []
  dists : ∀ d ∈ v.2, d.Writable

/-- The names the embedded compiler knows. -/
def Known (name : Str) : Prop :=
  name = "categorical".toList ∨ name = "crp".toList ∨ name = "normal".toList ∨ name = "poisson".toList

/-- A view whose distributions have names the embedded compiler knows. -/
structure ViewKnown (v : CoreDsl.Dist × List CoreDsl.Dist) : Prop where
  divide : Known v.1.name
  dists : ∀ d ∈ v.2, Known d.name

/-- A whole number of ten-thousandths. -/
def FourDecimals (v : ℚ) : Prop := ∃ n : Int, v = n / 10000

/-- The numbers of a distribution have four decimals. -/
def Dist.Exact (d : CoreDsl.Dist) : Prop :=
  (∀ kv ∈ d.distargs.getD [], FourDecimals kv.2) ∧ ∀ kv ∈ d.hypers, FourDecimals kv.2

/-- The number of a dict as a value of YAML, and the dict; an empty one cannot be told from `None`. -/
def ofDict (d : Dict Str ℚ) : Yaml :=
  if d = [] then .null else .map (d.map fun kv => (kv.1, .num kv.2))

/-- The distribution as the parser should return it. -/
def asParsed (d : CoreDsl.Dist) : Parsed := ⟨d.output, d.name, ofDict (d.distargs.getD []), ofDict d.hypers⟩

/-- The dimension a distribution describes. -/
noncomputable def dimOf (d : CoreDsl.Dist) : Dim :=
  ⟨String.ofList d.name, [d.output], d.hypers.map fun kv => (String.ofList kv.1, (kv.2 : ℝ)),
    kOf (d.distargs.getD [])⟩

/-- The view without rows an entry of an AST describes. -/
noncomputable def sourceOf (v : CoreDsl.Dist × List CoreDsl.Dist) : SourceView :=
  ⟨v.2.map dimOf, dimOf v.1, [], []⟩

/-- What `convert_primitive_to_ast` should give for a primitive made from the distribution: its variable,
its class, its number of categories, and all hyperparameters of the class, with the values given. -/
structure GivesBack (d : CoreDsl.Dist) (c : Converted) : Prop where
  output : c.output = d.output
  name : c.name = String.ofList d.name
  k : c.k = if c.name = "categorical" then kOf (d.distargs.getD []) else none
  hypers : ∀ n x, Dict.get? d.hypers n = some x → String.ofList n ∈ Dict.keys c.hypers →
    Dict.get? c.hypers (String.ofList n) = some (x : ℝ)
  names : Dict.keys c.hypers = if c.name = "normal" then ["m", "r", "s", "nu"]
    else if c.name = "poisson" then ["a", "b"] else ["alpha"]

end Cgpm2.CoreDsl
