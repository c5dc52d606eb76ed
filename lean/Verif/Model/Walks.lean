import Verif.Model.Cgpm

/-!
# src/walks.py

`get_cgpms_by_output_index` returns references to objects inside the model.  Here a list of
references is a list of objects together with a function that puts changed objects back in their
places.  Chain is not part of the tower (it has its own model).
-/

namespace Cgpm2

/-- References to primitives inside an object: the primitives, in order, and the object with
others in their places. -/
structure Refs (S : Type) where
  objs : List Prim
  put : List Prim → S

namespace Refs
variable {S S' : Type}

/-- The references seen from a wider object. -/
def map (f : S → S') (r : Refs S) : Refs S' := ⟨r.objs, fun l => f (r.put l)⟩

/-- `itertools.chain.from_iterable` over the components of a list. -/
def gather : List (Refs S) → Refs (List S)
  | [] => ⟨[], fun _ => []⟩
  | r :: rs => ⟨r.objs ++ (gather rs).objs, fun l =>
      r.put (l.take r.objs.length) :: (gather rs).put (l.drop r.objs.length)⟩

end Refs

/-- The branch for primitives (src/walks.py:26-27). -/
def primWalk (p : Prim) (output : Var) : Refs Prim :=
  if p.outputs = [output] then ⟨[p], fun l => l.headD p⟩ else ⟨[], fun _ => p⟩

namespace Walk
variable {S : Type} (I : Iface S) (w : S → Var → Except Err (Refs S))

/-- The branch for Product (src/walks.py:28-31). -/
def product (p : Product S) (output : Var) : Except Err (Refs (Product S)) :=
  match p.cgpms.zipIdx.filter fun ci => decide (output ∈ I.outputs ci.1) with
  | [(c, i)] => do
    let r ← w c output
    pure (r.map fun c' => ⟨p.cgpms.set i c'⟩)
  | _ => .error .assertionError

/-- The branch for FiniteArray (src/walks.py:32-34). -/
def finArray (a : FinArray S) (output : Var) : Except Err (Refs (FinArray S)) := do
  let rs ← a.cgpms.mapM fun c => w c output
  pure ((Refs.gather rs).map fun l => { a with cgpms := l })

/-- The branch for FlexibleArray (src/walks.py:35-38): the components, then the base. -/
def flexArray (a : FlexArray S) (output : Var) : Except Err (Refs (FlexArray S)) := do
  let rs ← (Dict.values a.cgpms).mapM fun c => w c output
  let rb ← w a.base output
  pure ⟨(Refs.gather rs).objs ++ rb.objs, fun l =>
    { a with
      cgpms := (Dict.keys a.cgpms).zip ((Refs.gather rs).put (l.take (Refs.gather rs).objs.length))
      base := rb.put (l.drop (Refs.gather rs).objs.length) }⟩

/-- The branch for the row mixtures (src/walks.py:39-43). -/
def rowMix {A : Type} (wA : A → Var → Except Err (Refs A)) (m : RowMix A) (output : Var) :
    Except Err (Refs (RowMix A)) :=
  if output ∈ m.rowDivide.outputs then
    .ok ((primWalk m.rowDivide output).map fun d => { m with rowDivide := d })
  else do
    let r ← wA m.array output
    pure (r.map fun a => { m with array := a })

/-- Dispatch over the classes (src/walks.py:24-45). -/
def node : Node S → Var → Except Err (Refs (Node S))
  | .prim p, o => .ok ((primWalk p o).map .prim)
  | .product p, o => (product I w p o).map (Refs.map .product)
  | .finArray a, o => (finArray w a o).map (Refs.map .finArray)
  | .flexArray a, o => (flexArray w a o).map (Refs.map .flexArray)
  | .finMix m, o => (rowMix (finArray w) m o).map (Refs.map .finMix)
  | .flexMix m, o => (rowMix (flexArray w) m o).map (Refs.map .flexMix)

end Walk

/-- `get_cgpms_by_output_index` (src/walks.py:24-45). -/
noncomputable def cgpmsByOutput : (n : Nat) → Cgpm n → Var → Except Err (Refs (Cgpm n))
  | 0, p, o => .ok (primWalk p o)
  | n + 1, c, o => Walk.node (cgpmI n) (cgpmsByOutput n) c o

/-- Call a function of src/transition_hypers.py on the primitives `get_cgpms_by_output_index`
returns; the changes they make are seen in the model. -/
noncomputable def onColumn {α : Type} {n : Nat} (output : Var) (f : Py (List Prim × Rng) α) :
    Py (Cgpm n × Rng) α := fun st =>
  match cgpmsByOutput n st.1 output with
  | .error e => (.error e, st)
  | .ok refs =>
    match f (refs.objs, st.2) with
    | (r, (l, g)) => (r, (refs.put l, g))

/-- A primitive as a CGPM of any depth. -/
def ofPrim : (n : Nat) → Prim → Cgpm n
  | 0, p => p
  | _ + 1, p => (Node.prim p : Node (Cgpm _))

namespace Walk
variable {S : Type} (I : Iface S)

/-- `remove_cgpm` on a Product (src/walks.py:51-55). -/
def productRemove (p : Product S) (output : Var) : Except Err (Product S) := do
  let cgpmsNew := p.cgpms.filter fun c => decide (output ∉ I.outputs c)
  if ¬ (cgpmsNew.length + 1 = p.cgpms.length ∨ cgpmsNew.length = p.cgpms.length) then
    throw .assertionError
  Product.init I cgpmsNew

variable (rm : S → Var → Except Err S)

/-- `remove_cgpm` on a FlexibleArray (src/walks.py:56-62). -/
def flexArrayRemove (a : FlexArray S) (output : Var) : Except Err (FlexArray S) := do
  let baseNew ← rm a.base output
  let cgpmsNew ← a.cgpms.mapM fun kc => do
    let c' ← rm kc.2 output
    pure (kc.1, c')
  let result := FlexArray.init baseNew a.indexer
  pure { result with cgpms := cgpmsNew, rowidToIndex := a.rowidToIndex }

/-- `remove_cgpm` on a FiniteArray (src/walks.py:74-78). -/
def finArrayRemove (a : FinArray S) (output : Var) : Except Err (FinArray S) := do
  let cgpmsNew ← a.cgpms.mapM fun c => rm c output
  let result ← FinArray.init cgpmsNew a.indexer
  pure { result with rowidToIndex := a.rowidToIndex }

/-- `remove_cgpm` on a FlexibleRowMixture (src/walks.py:63-73). -/
def flexMixRemove (m : FlexMix S) (output : Var) : Except Err (FlexMix S) := do
  if output = RowMix.indexer m then throw .assertionError
  let arrayNew ← flexArrayRemove rm m.array output
  let result ← FlexMix.init m.rowDivide arrayNew.base
  pure { result with rowidToComponent := m.rowidToComponent, array := arrayNew }

/-- `remove_cgpm` on a FiniteRowMixture (src/walks.py:79-88): `rowid_to_component` is not carried
over. -/
def finMixRemove (m : FinMix S) (output : Var) : Except Err (FinMix S) := do
  if output = RowMix.indexer m then throw .assertionError
  let arrayNew ← finArrayRemove rm m.array output
  let result ← FinMix.init m.rowDivide arrayNew.cgpms
  pure { result with array := arrayNew }

/-- Dispatch of `remove_cgpm` (src/walks.py:47-90). -/
def remove : Node S → Var → Except Err (Node S)
  | .prim _, _ => .error .assertionError
  | .product p, o => (productRemove I p o).map .product
  | .finArray a, o => (finArrayRemove rm a o).map .finArray
  | .flexArray a, o => (flexArrayRemove rm a o).map .flexArray
  | .finMix m, o => (finMixRemove rm m o).map .finMix
  | .flexMix m, o => (flexMixRemove rm m o).map .flexMix

/-- `add_cgpm` on a Product (src/walks.py:94-97). -/
def productAdd (p : Product S) (new : S) : Except Err (Product S) :=
  Product.init I (p.cgpms ++ [new])

variable (ad : S → Prim → Except Err S)

/-- `add_cgpm` on a FlexibleArray (src/walks.py:98-105): the base gets the new object, each
component a clone of it. -/
noncomputable def flexArrayAdd (a : FlexArray S) (new : Prim) : Except Err (FlexArray S) := do
  let baseNew ← ad a.base new
  let cgpmsNew ← a.cgpms.mapM fun kc => do
    let c' ← primI.clone new
    let c' ← ad kc.2 c'
    pure (kc.1, c')
  let result := FlexArray.init baseNew a.indexer
  pure { result with cgpms := cgpmsNew, rowidToIndex := a.rowidToIndex }

/-- `add_cgpm` on a FiniteArray (src/walks.py:116-121). -/
noncomputable def finArrayAdd (a : FinArray S) (new : Prim) : Except Err (FinArray S) := do
  let cgpmsNew ← a.cgpms.mapM fun c => do
    let c' ← primI.clone new
    ad c c'
  let result ← FinArray.init cgpmsNew a.indexer
  pure { result with rowidToIndex := a.rowidToIndex }

/-- `add_cgpm` on a FlexibleRowMixture (src/walks.py:106-115). -/
noncomputable def flexMixAdd (m : FlexMix S) (new : Prim) : Except Err (FlexMix S) := do
  let arrayNew ← flexArrayAdd ad m.array new
  let result ← FlexMix.init m.rowDivide arrayNew.base
  pure { result with rowidToComponent := m.rowidToComponent, array := arrayNew }

/-- `add_cgpm` on a FiniteRowMixture (src/walks.py:122-130): `rowid_to_component` is not carried
over. -/
noncomputable def finMixAdd (m : FinMix S) (new : Prim) : Except Err (FinMix S) := do
  let arrayNew ← finArrayAdd ad m.array new
  let result ← FinMix.init m.rowDivide arrayNew.cgpms
  pure { result with array := arrayNew }

/-- Dispatch of `add_cgpm` (src/walks.py:92-132); `up` makes the new primitive a component of a
product. -/
noncomputable def add (up : Prim → S) : Node S → Prim → Except Err (Node S)
  | .prim _, _ => .error .assertionError
  | .product p, new => (productAdd I p (up new)).map .product
  | .finArray a, new => (finArrayAdd ad a new).map .finArray
  | .flexArray a, new => (flexArrayAdd ad a new).map .flexArray
  | .finMix m, new => (finMixAdd ad m new).map .finMix
  | .flexMix m, new => (flexMixAdd ad m new).map .flexMix

end Walk

/-- `remove_cgpm` (src/walks.py:47-90).  The new composites share objects with the old ones; here
they are values. -/
noncomputable def removeCgpm : (n : Nat) → Cgpm n → Var → Except Err (Cgpm n)
  | 0, _, _ => .error .assertionError
  | n + 1, c, o => Walk.remove (cgpmI n) (removeCgpm n) c o

/-- `add_cgpm` (src/walks.py:92-132) of a primitive.  The new composites share objects with the old
ones; here they are values. -/
noncomputable def addCgpm : (n : Nat) → Cgpm n → Prim → Except Err (Cgpm n)
  | 0, _, _ => .error .assertionError
  | n + 1, c, new => Walk.add (cgpmI n) (addCgpm n) (ofPrim n) c new

end Cgpm2
