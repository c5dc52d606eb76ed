import Verif.Model.Cgpm
import Verif.Spec.History

/-!
# Specification vocabulary: composites of any depth and what can be asked of them
-/

namespace Cgpm2.Spec

/-- A call on a CGPM.  `rebuild` replaces the object by `from_metadata(to_metadata())`. -/
inductive Ask
  | observe (rowid : RowId) (observation inputs : Dict Var Val)
  | unobserve (rowid : RowId)
  | logpdf (rowid : RowId) (targets constraints inputs : Dict Var Val)
  | simulate (rowid : RowId) (targets : List Var) (constraints inputs : Dict Var Val)
      (N : Option Nat)
  | logpdfScore
  | outputs
  | inputs
  | rebuild

/-- What a call may return. -/
inductive Answer
  | none
  | row (observation inputs : Dict Var Val)
  | number (x : Fl)
  | samples (s : SimOut)
  | variables (l : List Var)

/-- A query is a call that is not meant to change the object. -/
def Ask.IsQuery : Ask → Prop
  | .logpdf .. => True
  | .simulate .. => True
  | .logpdfScore => True
  | .outputs => True
  | .inputs => True
  | _ => False

/-- One call: what it returns or raises, the object and the random state after it. -/
def ask {S : Type} (I : Iface S) : Ask → S × Rng → Except Err Answer × (S × Rng)
  | .observe r o i, st => ((I.observe r o i st).1.map fun _ => .none, (I.observe r o i st).2)
  | .unobserve r, st => ((I.unobserve r st).1.map fun x => .row x.1 x.2, (I.unobserve r st).2)
  | .logpdf r t c i, st => ((I.logpdf r t c i st).1.map .number, (I.logpdf r t c i st).2)
  | .simulate r t c i N, st =>
    ((I.simulate r t c i N st).1.map .samples, (I.simulate r t c i N st).2)
  | .logpdfScore, st => ((I.logpdfScore st.1).map .number, st)
  | .outputs, st => (.ok (.variables (I.outputs st.1)), st)
  | .inputs, st => (.ok (.variables (I.inputs st.1)), st)
  | .rebuild, st => match I.fromMetadata (I.toMetadata st.1) with
    | .ok s => (.ok .none, (s, st.2))
    | .error e => (.error e, st)

/-- The answers to a sequence of calls made one after another. -/
def answers {S : Type} (I : Iface S) : List Ask → S × Rng → List (Except Err Answer)
  | [], _ => []
  | a :: as, st => (ask I a st).1 :: answers I as (ask I a st).2

/-- The CGPMs a program can build and the states it can bring them into: a primitive with legal
hyperparameters after any history, or a composite made by a constructor from such CGPMs, after
any calls (which may raise) with any random outcomes.

The base of a flexible array holds no data (its score is 0), and a finite mixture is divided by
a Categorical or a Bernoulli. -/
inductive Built : (n : Nat) → Cgpm n → Prop
  | prim0 {p : Prim} (h : LegallyReachable p) : Built 0 p
  | prim {n : Nat} {p : Prim} (h : LegallyReachable p) : Built (n + 1) (.prim p : Node (Cgpm n))
  | product {n : Nat} {cs : List (Cgpm n)} {p : Product (Cgpm n)} (hc : ∀ c ∈ cs, Built n c)
      (h : Product.init (cgpmI n) cs = .ok p) : Built (n + 1) (.product p : Node (Cgpm n))
  | finArray {n : Nat} {cs : List (Cgpm n)} {x : Var} {a : FinArray (Cgpm n)}
      (hc : ∀ c ∈ cs, Built n c) (h : FinArray.init cs x = .ok a) :
      Built (n + 1) (.finArray a : Node (Cgpm n))
  | flexArray {n : Nat} {b : Cgpm n} {x : Var} (hb : Built n b)
      (hs : (cgpmI n).logpdfScore b = .ok (.fin 0)) :
      Built (n + 1) (.flexArray (FlexArray.init b x) : Node (Cgpm n))
  | finMix {n : Nat} {d : Prim} {cs : List (Cgpm n)} {m : FinMix (Cgpm n)}
      (hd : LegallyReachable d) (hk : d.kind = .categorical ∨ d.kind = .bernoulli)
      (hc : ∀ c ∈ cs, Built n c) (h : FinMix.init d cs = .ok m) :
      Built (n + 1) (.finMix m : Node (Cgpm n))
  | flexMix {n : Nat} {d : Prim} {b : Cgpm n} {m : FlexMix (Cgpm n)}
      (hd : LegallyReachable d) (hb : Built n b) (hs : (cgpmI n).logpdfScore b = .ok (.fin 0))
      (h : FlexMix.init d b = .ok m) : Built (n + 1) (.flexMix m : Node (Cgpm n))
  | call {n : Nat} {c : Cgpm n} (h : Built n c) (a : Ask) (g : Rng) :
      Built n (ask (cgpmI n) a (c, g)).2.1

/-- A primitive without its user-supplied `params`. -/
def primWithoutParams : Prim → Prim
  | .crp c => .crp { c with params := [] }
  | .categorical c => .categorical { c with params := [] }
  | .bernoulli c => .bernoulli { c with params := [] }
  | .normal c => .normal { c with params := [] }
  | .normalUC c => .normalUC { c with params := [] }
  | .poisson c => .poisson { c with params := [] }

/-- Every primitive inside the composite without its user-supplied `params`; everything else
as it is. -/
def withoutParams : (n : Nat) → Cgpm n → Cgpm n
  | 0, p => primWithoutParams p
  | _ + 1, .prim p => .prim (primWithoutParams p)
  | n + 1, .product p => .product ⟨p.cgpms.map (withoutParams n)⟩
  | n + 1, .finArray a => .finArray { a with cgpms := a.cgpms.map (withoutParams n) }
  | n + 1, .flexArray a => .flexArray { a with
      base := withoutParams n a.base
      cgpms := a.cgpms.map fun kc => (kc.1, withoutParams n kc.2) }
  | n + 1, .finMix m => .finMix { m with
      rowDivide := primWithoutParams m.rowDivide
      array := { m.array with cgpms := m.array.cgpms.map (withoutParams n) } }
  | n + 1, .flexMix m => .flexMix { m with
      rowDivide := primWithoutParams m.rowDivide
      array := { m.array with
        base := withoutParams n m.array.base
        cgpms := m.array.cgpms.map fun kc => (kc.1, withoutParams n kc.2) } }

/-- The entries of a dict whose keys are among the given variables. -/
def only (vars : List Var) (d : Dict Var Val) : Dict Var Val :=
  d.filter fun kv => decide (kv.1 ∈ vars)

/-- The logpdf of the part of a query that belongs to one block: 0 if the block has none of the
targets. -/
noncomputable def blockLogpdf {S : Type} (I : Iface S) (r : RowId) (t c i : Dict Var Val) (g : Rng)
    (b : S) : Except Err Fl :=
  if only (I.outputs b) t = [] then .ok (.fin 0)
  else (I.logpdf r (only (I.outputs b) t) (only (I.outputs b) c) (only (I.inputs b) i) (b, g)).1

end Cgpm2.Spec
