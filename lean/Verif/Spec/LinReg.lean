import Verif.Model.LinReg

/-!
# Specification vocabulary: a regression and its observations
-/

namespace Cgpm2.Spec

/-- A row given to `observe`: its id, the value and the inputs. -/
abbrev RegRow := RowId × Val × Dict Var Val

/-- `RegHistory m rows`: `m` was created with legal hyperparameters (`a` and `b` positive, `V`
positive definite; or any of them left to its default) and has since seen any number of
observations and changes of hyperparameters, among which exactly `rows` were accepted, in this
order. -/
inductive RegHistory : LinReg → List RegRow → Prop
  | init {outputs inputs : List Var} {levels : List Nat} {a b : Option ℝ}
      {mu : Option (Fin (regDim levels) → ℝ)}
      {V : Option (Matrix (Fin (regDim levels)) (Fin (regDim levels)) ℝ)} {params : Dict String ℝ}
      {m : LinReg} (ha : ∀ r, a = some r → 0 < r) (hb : ∀ r, b = some r → 0 < r)
      (hV : ∀ W, V = some W → W.PosDef)
      (h : LinReg.init outputs inputs levels a b mu V params = .ok m) : RegHistory m []
  | observe {m : LinReg} {rows : List RegRow} (h : RegHistory m rows) {r : RowId} {o : Var} {x : Val}
      {ob ins : Dict Var Val} (ho : m.outputs = [o]) (hx : Dict.get? ob o = some x)
      (hr : (LinReg.observe r ob ins m).1 = .ok ()) :
      RegHistory (LinReg.observe r ob ins m).2 (rows ++ [(r, x, ins)])
  | rejected {m : LinReg} {rows : List RegRow} (h : RegHistory m rows) {r : RowId}
      {ob ins : Dict Var Val} {e : Err} (hr : (LinReg.observe r ob ins m).1 = .error e) :
      RegHistory (LinReg.observe r ob ins m).2 rows
  | setHypers {m : LinReg} {rows : List RegRow} (h : RegHistory m rows)
      (hypers : Dict String (Option ℝ)) : RegHistory (LinReg.setHypers hypers m).2 rows

/-- None of the given inputs is missing. -/
def InputsPresent (inputs : List Var) (ins : Dict Var Val) : Prop :=
  ∀ i ∈ inputs, Dict.get? ins i ≠ some .nan

/-- Neither the value of a row nor one of its inputs is missing. -/
def RegRow.Complete (inputs : List Var) (row : RegRow) : Prop :=
  row.2.1 ≠ .nan ∧ InputsPresent inputs row.2.2

/-- Observe rows one after the other. -/
def observeRows (o : Var) : List RegRow → Py LinReg Unit
  | [] => pure ()
  | (r, x, ins) :: rows => do
    LinReg.observe r [(o, x)] ins
    observeRows o rows

/-- `block` is how a regression writes down the value `v` of one input.  A numeric input stands for
itself.  A categorical input with `L` levels takes `L - 1` entries: entry `j` is 1 if the value is
`j`, otherwise 0; all of them are 0 for the last level. -/
def IsCode : Option Nat → Val → List Val → Prop
  | none, v, block => block = [v]
  | some L, v, block => block.length = L - 1 ∧
      ∀ j : Nat, j < L - 1 → block[j]? = some (.num (if v = .num j then 1 else 0))

/-- The number of levels declared for an input; `none` for a numeric input. -/
def declared (inputs : List Var) (levels : List Nat) (i : Var) : Option Nat :=
  match (inputs.zip levels).find? fun il => il.1 = i with
  | some (_, l) => if l = 0 then none else some l
  | none => none

end Cgpm2.Spec
