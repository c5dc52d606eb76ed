import Verif.Model.Loops

/-!
# src/finite_array.py and src/flexible_array.py

`inputs.pop(indexer)` also removes the entry from the caller's dict; every caller in the
repository passes a dict it has just built, and the model passes dicts by value.
-/

namespace Cgpm2

/-- `inputs.pop(k)`: the value and the remaining entries; KeyError if absent (for
`inputs=None` Python raises AttributeError; the model does not distinguish `None` from `{}`). -/
def popItem (inputs : Dict Var Val) (k : Var) : Except Err (Val × Dict Var Val) :=
  match Dict.get? inputs k with
  | none => .error .keyError
  | some v => .ok (v, Dict.del inputs k)

/-- Position selected by `l[i]` in a Python list of length `n`: negative indices count from the
end; out of range is IndexError; a non-integer is TypeError (a whole float is identified with
the integer, see DESIGN.md). -/
def pyIndex (n : Nat) : Val → Except Err Nat
  | .nan => .error .typeError
  | .num q =>
    if ¬ isWhole q then .error .typeError
    else
      let i := truncate q
      if 0 ≤ i ∧ i < (n : Int) then .ok i.toNat
      else if i < 0 ∧ 0 ≤ i + (n : Int) then .ok (i + (n : Int)).toNat
      else .error .indexError

/-- Attributes of `FiniteArray` (src/finite_array.py:14-23). -/
structure FinArray (S : Type) where
  cgpms : List S
  indexer : Var
  rowidToIndex : Dict RowId Val

namespace FinArray
variable {S : Type} (I : Iface S)

/-- `FiniteArray.__init__` (src/finite_array.py:14-23); `cgpms[0]` of an empty list raises. -/
def init (cgpms : List S) (indexer : Var) : Except Err (FinArray S) :=
  match cgpms with
  | [] => .error .indexError
  | _ => .ok ⟨cgpms, indexer, []⟩

/-- `self.outputs` (src/finite_array.py:19). -/
def outputs (a : FinArray S) : List Var :=
  match a.cgpms with
  | [] => []
  | c :: _ => I.outputs c

/-- `self.inputs` (src/finite_array.py:20). -/
def inputs (a : FinArray S) : List Var :=
  match a.cgpms with
  | [] => [a.indexer]
  | c :: _ => a.indexer :: I.inputs c

/-- `self.cgpms[i]` followed by a method call on it. -/
def onCgpm {α : Type} (i : Val) (m : Py (S × Rng) α) : Py (FinArray S × Rng) α := fun st =>
  match pyIndex st.1.cgpms.length i with
  | .error e => (.error e, st)
  | .ok j =>
    match st.1.cgpms[j]? with
    | none => (.error .indexError, st)
    | some c =>
      match m (c, st.2) with
      | (r, (c', g')) => (r, ({ st.1 with cgpms := st.1.cgpms.set j c' }, g'))

/-- `FiniteArray.simulate` (src/finite_array.py:25-28). -/
def simulate (rowid : RowId) (targets : List Var) (constraints inputs : Dict Var Val)
    (N : Option Nat) : Py (FinArray S × Rng) SimOut := do
  let (a, _) ← Py.get
  let (i, inputs) ← Py.lift (popItem inputs a.indexer)
  onCgpm i (I.simulate rowid targets constraints inputs N)

/-- `FiniteArray.logpdf` (src/finite_array.py:30-33). -/
def logpdf (rowid : RowId) (targets constraints inputs : Dict Var Val) :
    Py (FinArray S × Rng) Fl := do
  let (a, _) ← Py.get
  let (i, inputs) ← Py.lift (popItem inputs a.indexer)
  onCgpm i (I.logpdf rowid targets constraints inputs)

/-- `FiniteArray.logpdf_score` (src/finite_array.py:35-36): the missing call parentheses make
`sum` add a bound method to 0. -/
noncomputable def logpdfScore (a : FinArray S) : Except Err Fl :=
  match a.cgpms with
  | [] => .ok 0
  | _ :: _ => .error .typeError

/-- `FiniteArray.observe` (src/finite_array.py:38-42). -/
def observe (rowid : RowId) (observation inputs : Dict Var Val) : Py (FinArray S × Rng) Unit := do
  let (a, _) ← Py.get
  let (i, inputs) ← Py.lift (popItem inputs a.indexer)
  onCgpm i (I.observe rowid observation inputs)
  Py.modify fun st => ({ st.1 with rowidToIndex := Dict.set st.1.rowidToIndex rowid i }, st.2)

/-- `FiniteArray.unobserve` (src/finite_array.py:44-48). -/
def unobserve (rowid : RowId) : Py (FinArray S × Rng) (Dict Var Val × Dict Var Val) := do
  let (a, _) ← Py.get
  let i ← Py.lift (Dict.getItem a.rowidToIndex rowid)
  Py.modify fun st => ({ st.1 with rowidToIndex := Dict.del st.1.rowidToIndex rowid }, st.2)
  onCgpm i (I.unobserve rowid)

/-- `FiniteArray.to_metadata` (src/finite_array.py:53-59). -/
def toMetadata (a : FinArray S) : Metadata :=
  .finiteArray (a.cgpms.map I.toMetadata) a.indexer a.rowidToIndex

/-- `FiniteArray.from_metadata` (src/finite_array.py:61-66). -/
def fromMetadata : Metadata → Except Err (FinArray S)
  | .finiteArray ms indexer rowidToIndex => do
    let cgpms ← ms.mapM I.fromMetadata
    let model ← init cgpms indexer
    pure { model with rowidToIndex := Dict.update [] rowidToIndex }
  | _ => .error .typeError

end FinArray

/-- A finite array as a CGPM. -/
noncomputable def finArrayI {S : Type} (I : Iface S) : Iface (FinArray S) where
  outputs := FinArray.outputs I
  inputs := FinArray.inputs I
  observe := FinArray.observe I
  unobserve := FinArray.unobserve I
  logpdf := FinArray.logpdf I
  simulate := FinArray.simulate I
  logpdfScore := FinArray.logpdfScore
  support _ := .error .attributeError
  toMetadata := FinArray.toMetadata I
  fromMetadata := FinArray.fromMetadata I

/-- Attributes of `FlexibleArray` (src/flexible_array.py:16-26). -/
structure FlexArray (S : Type) where
  base : S
  indexer : Var
  cgpms : Dict Val S
  rowidToIndex : Dict RowId Val

namespace FlexArray
variable {S : Type} (I : Iface S)

/-- `FlexibleArray.__init__` (src/flexible_array.py:16-26). -/
def init (base : S) (indexer : Var) : FlexArray S := ⟨base, indexer, [], []⟩

/-- `self.outputs` (src/flexible_array.py:21). -/
def outputs (a : FlexArray S) : List Var := I.outputs a.base

/-- `self.inputs` (src/flexible_array.py:22). -/
def inputs (a : FlexArray S) : List Var := a.indexer :: I.inputs a.base

/-- `FlexibleArray.get_cgpm` (src/flexible_array.py:84-87) and `create_new_cgpm`
(src/flexible_array.py:89-94), followed by a method call on the component. -/
def onCgpm {α : Type} (i : Val) (m : Py (S × Rng) α) : Py (FlexArray S × Rng) α := fun st =>
  match Dict.get? st.1.cgpms i with
  | some c =>
    match m (c, st.2) with
    | (r, (c', g')) => (r, ({ st.1 with cgpms := Dict.set st.1.cgpms i c' }, g'))
  | none =>
    match I.clone st.1.base with
    | .error e => (.error e, st)
    | .ok c =>
      match m (c, st.2) with
      | (r, (c', g')) => (r, ({ st.1 with cgpms := Dict.set st.1.cgpms i c' }, g'))

/-- `FlexibleArray.simulate` (src/flexible_array.py:28-31). -/
def simulate (rowid : RowId) (targets : List Var) (constraints inputs : Dict Var Val)
    (N : Option Nat) : Py (FlexArray S × Rng) SimOut := do
  let (a, _) ← Py.get
  let (i, inputs) ← Py.lift (popItem inputs a.indexer)
  onCgpm I i (I.simulate rowid targets constraints inputs N)

/-- `FlexibleArray.logpdf` (src/flexible_array.py:33-36). -/
def logpdf (rowid : RowId) (targets constraints inputs : Dict Var Val) :
    Py (FlexArray S × Rng) Fl := do
  let (a, _) ← Py.get
  let (i, inputs) ← Py.lift (popItem inputs a.indexer)
  onCgpm I i (I.logpdf rowid targets constraints inputs)

/-- `FlexibleArray.logpdf_score` (src/flexible_array.py:38-39). -/
noncomputable def logpdfScore (a : FlexArray S) : Except Err Fl := do
  let l ← (Dict.values a.cgpms).mapM I.logpdfScore
  pure (Fl.sum l)

/-- `FlexibleArray.observe` (src/flexible_array.py:41-45). -/
def observe (rowid : RowId) (observation inputs : Dict Var Val) :
    Py (FlexArray S × Rng) Unit := do
  let (a, _) ← Py.get
  let (i, inputs) ← Py.lift (popItem inputs a.indexer)
  onCgpm I i (I.observe rowid observation inputs)
  Py.modify fun st => ({ st.1 with rowidToIndex := Dict.set st.1.rowidToIndex rowid i }, st.2)

/-- `FlexibleArray.unobserve` (src/flexible_array.py:47-51). -/
def unobserve (rowid : RowId) : Py (FlexArray S × Rng) (Dict Var Val × Dict Var Val) := do
  let (a, _) ← Py.get
  let i ← Py.lift (Dict.getItem a.rowidToIndex rowid)
  Py.modify fun st => ({ st.1 with rowidToIndex := Dict.del st.1.rowidToIndex rowid }, st.2)
  onCgpm I i (I.unobserve rowid)

/-- `FlexibleArray.to_metadata` (src/flexible_array.py:56-64). -/
def toMetadata (a : FlexArray S) : Metadata :=
  .flexibleArray (I.toMetadata a.base) a.indexer a.rowidToIndex
    (a.cgpms.map fun ic => (ic.1, I.toMetadata ic.2))

/-- `FlexibleArray.from_metadata` (src/flexible_array.py:66-72). -/
def fromMetadata : Metadata → Except Err (FlexArray S)
  | .flexibleArray base indexer rowidToIndex ms => do
    let base ← I.fromMetadata base
    let cgpms ← ms.mapM fun im => do
      let c ← I.fromMetadata im.2
      pure (im.1, c)
    pure { init base indexer with
      cgpms := Dict.update [] cgpms, rowidToIndex := Dict.update [] rowidToIndex }
  | _ => .error .typeError

end FlexArray

/-- A flexible array as a CGPM. -/
noncomputable def flexArrayI {S : Type} (I : Iface S) : Iface (FlexArray S) where
  outputs := FlexArray.outputs I
  inputs := FlexArray.inputs I
  observe := FlexArray.observe I
  unobserve := FlexArray.unobserve I
  logpdf := FlexArray.logpdf I
  simulate := FlexArray.simulate I
  logpdfScore := FlexArray.logpdfScore I
  support _ := .error .attributeError
  toMetadata := FlexArray.toMetadata I
  fromMetadata := FlexArray.fromMetadata I

end Cgpm2
