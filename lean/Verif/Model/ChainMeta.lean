import Verif.Model.Chain

/-!
# src/chain.py: the constructor with its network, `to_metadata` and `from_metadata`

`validate_cgpms`, `flatten_cgpms` and the other functions of `cgpm.network.helpers` are external.
They are one parameter `networkOf` here: a function of the lists of outputs and inputs of the
members, which raises if they are not valid.  Members are no chains, because `flatten_cgpms` has put
the members of these in their place.
-/

namespace Cgpm2

/-- The attributes of a member that `cgpm.network.helpers` reads. -/
def ports {S : Type} (I : Iface S) (c : S) : List Var × List Var := (I.outputs c, I.inputs c)

namespace Chain
variable {S : Type} (I : Iface S) (networkOf : List (List Var × List Var) → Except Err Network)

/-- `Chain.__init__` (src/chain.py:34-47) with the computation of the network. -/
def construct (cgpms : List S) (accuracy : Option Nat) : Except Err (Chain S) := do
  let net ← networkOf (cgpms.map (ports I))
  pure (init cgpms accuracy net)

/-- `Chain.to_metadata` (src/chain.py:101-106). -/
def toMetadata (c : Chain S) : Metadata := .chain (c.cgpms.map I.toMetadata) c.accuracy

/-- `Chain.from_metadata` (src/chain.py:108-112).  `build_cgpm` (external) calls the
`from_metadata` of the class named by the metadata. -/
def fromMetadata : Metadata → Except Err (Chain S)
  | .chain ms accuracy => do
    let cgpms ← ms.mapM I.fromMetadata
    construct I networkOf cgpms (some accuracy)
  | _ => .error .typeError

end Chain

/-- A chain as a CGPM (src/chain.py:31-119). -/
noncomputable def chainI {S : Type} (I : Iface S)
    (networkOf : List (List Var × List Var) → Except Err Network) : Iface (Chain S) where
  outputs := Chain.outputs I
  inputs := Chain.inputs I
  observe := Chain.observe I
  unobserve := Chain.unobserve I
  logpdf := Chain.logpdf I
  simulate := Chain.simulate I
  logpdfScore := Chain.logpdfScore I
  support _ := .error .attributeError
  toMetadata := Chain.toMetadata I
  fromMetadata := Chain.fromMetadata I networkOf

end Cgpm2
