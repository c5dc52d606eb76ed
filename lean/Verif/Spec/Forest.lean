import Verif.Model.Forest
import Verif.Spec.LinReg

/-!
# Specification vocabulary: a random forest and its history
-/

namespace Cgpm2.Spec

/-- What scikit-learn's `fit` is relied on for (external).  The classes of a fitted classifier are
the different values of the training data.  For a row of numbers as wide as the training rows,
`predict_log_proba` gives one log-probability for each class, and the probabilities sum to one. -/
structure FitOk (Y : List (List Val)) (x : List Val) (c : Classifier) : Prop where
  nodup : c.classes.Nodup
  mem : ∀ v, v ∈ c.classes ↔ v ∈ x
  predict : ∀ y : List Val, Val.nan ∉ y → (∀ row ∈ Y, row.length = y.length) →
    ∃ logps, c.predict y = .ok logps ∧ logps.length = c.classes.length ∧
      (∀ l ∈ logps, l.IsLogP) ∧ (logps.map Fl.exp).sum = 1

/-- `ForestHistory m rows`: `m` was created and has since seen any number of observations and
transitions, among which exactly the observations `rows` were accepted, in this order.  `fit` may
fail or return any classifier as described in `FitOk`, another one each time. -/
inductive ForestHistory : Forest → List RegRow → Prop
  | init {outputs inputs : List Var} {k : Nat} {levels : List Nat} {params : Dict String ℝ} {m : Forest}
      (h : Forest.init outputs inputs k levels params = .ok m) : ForestHistory m []
  | observe {m : Forest} {rows : List RegRow} (h : ForestHistory m rows) {r : RowId} {o : Var} {x : Val}
      {ob ins : Dict Var Val} (ho : m.outputs = [o]) (hx : Dict.get? ob o = some x)
      (hr : (Forest.observe r ob ins m).1 = .ok ()) :
      ForestHistory (Forest.observe r ob ins m).2 (rows ++ [(r, x, ins)])
  | rejected {m : Forest} {rows : List RegRow} (h : ForestHistory m rows) {r : RowId}
      {ob ins : Dict Var Val} {e : Err} (hr : (Forest.observe r ob ins m).1 = .error e) :
      ForestHistory (Forest.observe r ob ins m).2 rows
  | transition {m : Forest} {rows : List RegRow} (h : ForestHistory m rows)
      (fit : List (List Val) → List Val → Except Err Classifier)
      (hf : ∀ Y x c, fit Y x = .ok c → FitOk Y x c) : ForestHistory (Forest.transition fit m).2 rows

/-- How a forest writes down the value of one input: as a regression does, except that a missing
value of a categorical input is written as missing entries. -/
def IsForestCode : Option Nat → Val → List Val → Prop
  | some L, .nan, block => block = List.replicate (L - 1) .nan
  | o, v, block => IsCode o v block

end Cgpm2.Spec
