import Verif.Model.Chain
import Verif.Spec.Composite

/-!
# Specification vocabulary: chains
-/

namespace Cgpm2.Spec
variable {S : Type}

/-- The inputs of a member that has one of the given variables among its outputs, the inputs of a
member that has one of these among its outputs, and so on. -/
inductive Needed (I : Iface S) (members : List S) (vars : List Var) : Var → Prop
  | direct {b : S} {v i : Var} (hb : b ∈ members) (hv : v ∈ I.outputs b) (h : v ∈ vars)
      (hi : i ∈ I.inputs b) : Needed I members vars i
  | further {b : S} {v i : Var} (hb : b ∈ members) (hv : v ∈ I.outputs b)
      (h : Needed I members vars v) (hi : i ∈ I.inputs b) : Needed I members vars i

/-- What `cgpm.network.helpers` is relied on for (external).  No variable is an output of two members
(`validate_cgpms`).  The topological order lists every member once, and no member before one of its
parents; no member is its own parent.  The required inputs of a query are the needed outputs that it does not mention. -/
structure NetworkOk (I : Iface S) (ch : Chain S) : Prop where
  disjoint : (Chain.outputs I ch).Nodup
  all : ch.net.topo.Perm (List.range ch.cgpms.length)
  order : ch.net.topo.Pairwise fun j k => ∀ b c, ch.cgpms[j]? = some b → ch.cgpms[k]? = some c →
    ∀ i ∈ I.inputs b, i ∉ I.outputs c
  acyclic : ∀ b ∈ ch.cgpms, ∀ i ∈ I.inputs b, i ∉ I.outputs b
  required : ∀ targets constrained v, v ∈ ch.net.required targets constrained ↔
    Needed I ch.cgpms (targets ++ constrained) v ∧ v ∈ Chain.outputs I ch ∧ v ∉ targets ∧
      v ∉ constrained

/-- A member in a state a program can reach.  Nothing is asked of regressions and forests. -/
def MemberOk : Member → Prop
  | .tower n c => Built n c
  | .linreg _ => True
  | .forest _ => True

/-- Every member with a variable in the row finds all its inputs: in the row, or, if they are outputs
of no member, among the given inputs. -/
def Supplied (I : Iface S) (ch : Chain S) (row ins : Dict Var Val) : Prop :=
  ∀ b ∈ ch.cgpms, (∃ v ∈ I.outputs b, v ∈ Dict.keys row) →
    ∀ i ∈ I.inputs b, i ∈ Dict.keys row ∨ (i ∈ Dict.keys ins ∧ i ∉ Chain.outputs I ch)

/-- The log density that a member gives to its own part of a row: its inputs are the values of its
parents in the row, and the given inputs; 0 if it has no part in the row. -/
noncomputable def memberLogpdf (I : Iface S) (r : RowId) (row ins : Dict Var Val) (g : Rng) (b : S) :
    Except Err Fl :=
  if only (I.outputs b) row = [] then .ok (.fin 0)
  else (I.logpdf r (only (I.outputs b) row) []
    (merged (only (I.inputs b) ins) (only (I.inputs b) row)) (b, g)).1

/-- A member's own chain rule: it gives the observation a finite log density, accepts it, and its
score grows by that log density, whatever the random numbers.  The inputs come as two dicts because
a chain writes the entries in a different order for `logpdf` and for `observe`. -/
def AddsUp (I : Iface S) (b : S) (r : RowId) (ob inputsLogpdf inputsObserve : Dict Var Val) : Prop :=
  ∃ s l : ℝ, I.logpdfScore b = .ok (.fin s) ∧ ∀ g,
    (I.logpdf r ob [] inputsLogpdf (b, g)).1 = .ok (.fin l) ∧
    (I.observe r ob inputsObserve (b, g)).1 = .ok () ∧
    I.logpdfScore (I.observe r ob inputsObserve (b, g)).2.1 = .ok (.fin (s + l))

/-- Asked for some of its outputs for row `r`, given some of its inputs, the member returns a dict
with no other variables. -/
def ReturnsTargets (I : Iface S) (r : RowId) (b : S) : Prop :=
  ∀ t i g s st, (∀ v ∈ t, v ∈ I.outputs b) → (∀ k ∈ Dict.keys i, k ∈ I.inputs b) →
    I.simulate r t [] i none (b, g) = (.ok (.one s), st) →
    (Dict.keys s).Nodup ∧ ∀ v ∈ Dict.keys s, v ∈ t

/-- `full` is a sample drawn member by member: each member with variables in `vars` is asked for
them once, given the values that its parents have in `full` and the given inputs, with the random
numbers that the members before it left over. -/
inductive Ancestral (I : Iface S) (r : RowId) (vars : List Var) (ins full : Dict Var Val) :
    List S → Rng → Rng → Prop
  | nil (g : Rng) : Ancestral I r vars ins full [] g g
  | skip {b : S} {bs : List S} {g g' : Rng} (h : ∀ v ∈ vars, v ∉ I.outputs b)
      (hf : ∀ v ∈ I.outputs b, Dict.get? full v = none)
      (rest : Ancestral I r vars ins full bs g g') : Ancestral I r vars ins full (b :: bs) g g'
  | draw {b b' : S} {bs : List S} {g g₁ g' : Rng} {s : Dict Var Val} (h : ∃ v ∈ vars, v ∈ I.outputs b)
      (hs : I.simulate r (vars.filter fun v => decide (v ∈ I.outputs b)) []
        (merged (only (I.inputs b) ins) (only (I.inputs b) full)) none (b, g) = (.ok (.one s), (b', g₁)))
      (hf : ∀ v ∈ I.outputs b, Dict.get? full v = Dict.get? s v)
      (rest : Ancestral I r vars ins full bs g₁ g') : Ancestral I r vars ins full (b :: bs) g g'

end Cgpm2.Spec
