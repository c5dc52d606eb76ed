import Verif.Model.Crp
import Verif.Model.Categorical
import Verif.Model.Bernoulli
import Verif.Model.NormalUC
import Verif.Model.Poisson

/-!
# src/icgpm.py: the interface every CGPM implements, and the metadata it serialises to
-/

namespace Cgpm2

/-- What `to_metadata` returns (a dict tagged with a `factory` entry; the tag is the
constructor).  Fields of the composites: src/product.py:45-49, src/finite_array.py:53-59,
src/flexible_array.py:56-64, src/finite_rowmix.py:200-207, src/flexible_rowmix.py:36-44,
src/chain.py:101-106. -/
inductive Metadata
  | crp (m : Crp.Meta)
  | categorical (m : Categorical.Meta)
  | bernoulli (m : Bernoulli.Meta)
  | normal (m : Normal.Meta)
  | normalUC (m : NormalUC.Meta)
  | poisson (m : Poisson.Meta)
  | product (cgpms : List Metadata)
  | chain (cgpms : List Metadata) (accuracy : Nat)
  | finiteArray (cgpms : List Metadata) (indexer : Var) (rowidToIndex : Dict RowId Val)
  | flexibleArray (base : Metadata) (indexer : Var) (rowidToIndex : Dict RowId Val)
      (cgpms : List (Val × Metadata))
  | finiteRowMixture (rowDivide componentsArray : Metadata) (rowidToComponent : Dict RowId Val)
  | flexibleRowMixture (rowDivide componentsArray : Metadata)
      (rowidToComponent : Dict RowId Val)

/-- The methods of a CGPM (src/icgpm.py:6-140).  `None` for constraints or inputs is the empty
dict.  Every method that may draw random numbers runs on the object together with the random
state.  `support` is only defined by some classes (AttributeError otherwise). -/
structure Iface (S : Type) where
  outputs : S → List Var
  inputs : S → List Var
  observe : RowId → Dict Var Val → Dict Var Val → Py (S × Rng) Unit
  unobserve : RowId → Py (S × Rng) (Dict Var Val × Dict Var Val)
  logpdf : RowId → Dict Var Val → Dict Var Val → Dict Var Val → Py (S × Rng) Fl
  simulate : RowId → List Var → Dict Var Val → Dict Var Val → Option Nat → Py (S × Rng) SimOut
  logpdfScore : S → Except Err Fl
  support : S → Except Err (List Int)
  toMetadata : S → Metadata
  fromMetadata : Metadata → Except Err S

/-- `clone_cgpm` (src/walks.py:19-22) and `FlexibleArray.create_new_cgpm`
(src/flexible_array.py:89-94): serialise and rebuild. -/
def Iface.clone {S : Type} (I : Iface S) (s : S) : Except Err S := I.fromMetadata (I.toMetadata s)

namespace Py

/-- Run a method of the object stored in one half of a pair. -/
def onFst {S T α : Type} (m : Py S α) : Py (S × T) α := fun st =>
  match m st.1 with
  | (r, s') => (r, (s', st.2))

/-- Run a draw on the random state held beside the object. -/
def onSnd {S T α : Type} (m : Py T α) : Py (S × T) α := fun st =>
  match m st.2 with
  | (r, t') => (r, (st.1, t'))

/-- Run a method of a wrapped object. -/
def wrap {A S α : Type} (f : A → S) (m : Py A α) (a : A) : Except Err α × S :=
  match m a with
  | (r, a') => (r, f a')

end Py

end Cgpm2
