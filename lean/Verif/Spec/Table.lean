import Verif.Spec.Composite
import Verif.Spec.Primitive
import Verif.Spec.Edits
import Verif.Model.TransitionHypers

/-!
# Specification vocabulary: the table a CGPM holds, seen through its methods
-/

namespace Cgpm2.Spec

/-- The cell held for a row and a variable: what `unobserve` would hand back. -/
def heldCell {S : Type} (I : Iface S) (s : S) (g : Rng) (r : RowId) (v : Var) : Option Val :=
  match (I.unobserve r (s, g)).1 with
  | .ok (observation, _) => Dict.get? observation v
  | .error _ => none

/-- Nothing is held for the row. -/
def HoldsNothing {S : Type} (I : Iface S) (s : S) (r : RowId) : Prop :=
  ∀ g v, heldCell I s g r v = none

/-- Cluster variables are given whole-number values. -/
def WholeClusters (Z : List Var) (o : Dict Var Val) : Prop :=
  ∀ v ∈ Z, ∀ x, Dict.get? o v = some x → ∃ k : Int, x = .num (k : ℚ)

/-- A call that is not an observe. -/
def Ask.NotObserve : Ask → Prop
  | .observe .. => False
  | _ => True

/-- Models without inputs, built from primitives by Product, FiniteRowMixture and
FlexibleRowMixture to any depth, and used properly: mixtures start out empty, their components
have the same outputs, clusters given to observe are whole numbers, and no observe raises.  All
other calls may raise.  Columns may be taken out (not the last one) and empty ones added, and the
hyperparameters of columns and row dividers may be set or resampled.  `Z` lists the cluster
variables: the outputs of the row dividers and of any other CRP. -/
inductive Tidy (Z : List Var) : (n : Nat) → Cgpm n → Prop
  | prim0 {p : Prim} (h : LegallyReachable p) (hi : p.inputs = [])
      (hz : ∀ v ∈ p.outputs, v ∈ Z ↔ p.kind = .crp) : Tidy Z 0 p
  | prim {n : Nat} {p : Prim} (h : LegallyReachable p) (hi : p.inputs = [])
      (hz : ∀ v ∈ p.outputs, v ∈ Z ↔ p.kind = .crp) : Tidy Z (n + 1) (.prim p : Node (Cgpm n))
  | product {n : Nat} {cs : List (Cgpm n)} {p : Product (Cgpm n)} (hc : ∀ c ∈ cs, Tidy Z n c)
      (hne : cs ≠ []) (h : Product.init (cgpmI n) cs = .ok p) :
      Tidy Z (n + 1) (.product p : Node (Cgpm n))
  | finMix {n : Nat} {d : Prim} {cs : List (Cgpm n)} {m : FinMix (Cgpm n)}
      (hd : LegallyReachable d) (hi : d.inputs = []) (hk : d.kind = .categorical ∨ d.kind = .bernoulli)
      (hz : ∀ v ∈ d.outputs, v ∈ Z) (he : d.data = [])
      (hc : ∀ c ∈ cs, Tidy Z n c) (hce : ∀ c ∈ cs, ∀ r, HoldsNothing (cgpmI n) c r)
      (hco : ∀ c ∈ cs, ∀ c' ∈ cs, (cgpmI n).outputs c = (cgpmI n).outputs c')
      (hx : ∀ c ∈ cs, ∀ v ∈ d.outputs, v ∉ (cgpmI n).outputs c)
      (h : FinMix.init d cs = .ok m) : Tidy Z (n + 1) (.finMix m : Node (Cgpm n))
  | flexMix {n : Nat} {d : Prim} {b : Cgpm n} {m : FlexMix (Cgpm n)}
      (hd : LegallyReachable d) (hi : d.inputs = [])
      (hk : d.kind = .crp ∨ d.kind = .categorical ∨ d.kind = .bernoulli)
      (hz : ∀ v ∈ d.outputs, v ∈ Z) (he : d.data = [])
      (hb : Tidy Z n b) (hbe : ∀ r, HoldsNothing (cgpmI n) b r)
      (hs : (cgpmI n).logpdfScore b = .ok (.fin 0))
      (hx : ∀ v ∈ d.outputs, v ∉ (cgpmI n).outputs b)
      (h : FlexMix.init d b = .ok m) : Tidy Z (n + 1) (.flexMix m : Node (Cgpm n))
  | observe {n : Nat} {c c' : Cgpm n} (h : Tidy Z n c) {r : RowId} {o i : Dict Var Val} {g g' : Rng}
      (hw : WholeClusters Z o) (ho : (cgpmI n).observe r o i (c, g) = (.ok (), (c', g'))) :
      Tidy Z n c'
  | call {n : Nat} {c : Cgpm n} (h : Tidy Z n c) {a : Ask} (ha : a.NotObserve) (g : Rng) :
      Tidy Z n (ask (cgpmI n) a (c, g)).2.1
  | remove {n : Nat} {c c' : Cgpm n} (h : Tidy Z n c) {o : Var} (hr : Removable n c o)
      (ho : removeCgpm n c o = .ok c') : Tidy Z n c'
  | add {n : Nat} {c c' : Cgpm n} (h : Tidy Z n c) {new : Prim} (hn : Tidy Z 0 new)
      (he : ∀ r, HoldsNothing (cgpmI 0) new r) (ha : Addable n c)
      (hx : ∀ v ∈ new.outputs, v ∉ (cgpmI n).outputs c) (ho : addCgpm n c new = .ok c') : Tidy Z n c'
  | hypers {n : Nat} {c : Cgpm n} (h : Tidy Z n c) {o : Var} (ho : o ∈ (cgpmI n).outputs c)
      (grids : Dict String (List ℝ)) (g : Rng) : Tidy Z n (onColumn o (transitionHypers grids) (c, g)).2.1
  | setHypers {n : Nat} {c : Cgpm n} (h : Tidy Z n c) {o : Var} (ho : o ∈ (cgpmI n).outputs c)
      (hypers : Dict String ℝ) (g : Rng) : Tidy Z n (onColumn o (setHypersAll hypers) (c, g)).2.1

/-- An observation the model is meant to accept: every primitive it reaches is given a value it
accepts, every mixture a cluster (of a finite mixture the number of a component, of a flexible
one a cluster its divider accepts) and an observation that fits the component of that cluster.
Blocks of a product may be left out. -/
def Fits : (n : Nat) → Cgpm n → Dict Var Val → Prop
  | 0, p, o => ∃ v x, Prim.outputs p = [v] ∧ Dict.get? o v = some x ∧ Accepts p x
  | _ + 1, .prim p, o => ∃ v x, p.outputs = [v] ∧ Dict.get? o v = some x ∧ Accepts p x
  | n + 1, .product p, o =>
    ∀ c ∈ p.cgpms, (∀ v ∈ (cgpmI n).outputs c, Dict.get? o v = none) ∨ Fits n c o
  | n + 1, .finMix m, o => ∃ v k c, m.rowDivide.outputs = [v] ∧
    Dict.get? o v = some (.num ((k : Nat) : ℚ)) ∧ m.array.cgpms[k]? = some c ∧ Fits n c o
  | n + 1, .flexMix m, o => ∃ v k, m.rowDivide.outputs = [v] ∧
    Dict.get? o v = some (.num ((k : Int) : ℚ)) ∧ Accepts m.rowDivide (.num k) ∧
    Fits n ((Dict.get? m.array.cgpms (.num k)).getD m.array.base) o
  | _ + 1, .finArray _, _ => False
  | _ + 1, .flexArray _, _ => False

end Cgpm2.Spec
