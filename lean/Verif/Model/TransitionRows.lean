import Verif.Model.Cgpm

/-!
# src/transition_rows.py

The functions take a mixture as an object of any class (`Node S`, with components of class `S`);
the class checks are the case distinction in `Node.rowDivide`.
-/

namespace Cgpm2

variable {S : Type}

/-- The attribute `cgpm_row_divide`, which the two row mixture classes have
(src/finite_rowmix.py:29, src/flexible_rowmix.py:20). -/
def Node.rowDivide : Node S → Option Prim
  | .finMix m => some m.rowDivide
  | .flexMix m => some m.rowDivide
  | _ => none

/-- `isinstance(cgpm_mixture, FlexibleRowMixture)`. -/
def Node.IsFlexible : Node S → Prop
  | .flexMix _ => True
  | _ => False

instance (c : Node S) : Decidable c.IsFlexible := by
  cases c <;> unfold Node.IsFlexible <;> infer_instance

/-- `cgpm_mixture.cgpm_row_divide` of the mixture as it is now. -/
def currentDivide : Py (Node S × Rng) Prim := do
  let (c, _) ← Py.get
  match c.rowDivide with
  | some d => pure d
  | none => Py.throw .assertionError

/-- `transition_rows` (src/transition_rows.py:12-24).  Lines 19 and 23 assign to the same key of
`observation`, a dict made by `unobserve` that nobody else refers to, so each iteration is given
its own dict. -/
noncomputable def transitionRows (I : Iface S) (rowid : RowId) : Py (Node S × Rng) Unit := do
  let _ ← currentDivide
  let (observation, inputs) ← (nodeI I).unobserve rowid
  let d ← currentDivide
  let zs ← Py.lift d.support
  let z0 := d.outputs.headD 0
  let logps ← Py.mapL (fun z : Int =>
    (nodeI I).logpdf none (Dict.set observation z0 (.num z)) [] inputs) zs
  let i ← Py.onSnd (logPflipIdx logps)
  (nodeI I).observe rowid (Dict.set observation z0 (.num (zs.getD i 0 : Int))) inputs

/-- `get_rowids` (src/transition_rows.py:26-30). -/
def getRowids : Py (Node S × Rng) (List RowId) := do
  let d ← currentDivide
  pure (Dict.keys d.data)

/-- `set_rowid_component` (src/transition_rows.py:32-45).  Line 35 compares the two row ids by
object identity; `identical` says whether they are the same object.  Equal small integers are
the same object in CPython, equal large ones need not be. -/
noncomputable def setRowidComponent (I : Iface S) (identical : Bool) (rowid0 rowid1 : RowId) :
    Py (Node S × Rng) Unit := do
  let _ ← currentDivide
  if identical then pure ()
  else match rowid1 with
    | none => do
      let (c, _) ← Py.get
      Py.assert c.IsFlexible
      let (observation, inputs) ← (nodeI I).unobserve rowid0
      let d ← currentDivide
      let zs ← Py.lift d.support
      match zs.getLast? with
      | none => Py.throw .indexError
      | some assignment =>
        (nodeI I).observe rowid0
          (Dict.set observation (d.outputs.headD 0) (.num (assignment : Int))) inputs
    | some _ => do
      let d0 ← currentDivide
      let assignment ← Py.lift (Dict.getItem d0.data rowid1)
      let (observation, inputs) ← (nodeI I).unobserve rowid0
      let d ← currentDivide
      (nodeI I).observe rowid0 (Dict.set observation (d.outputs.headD 0) assignment) inputs

end Cgpm2
