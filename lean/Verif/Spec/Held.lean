import Verif.Spec.Density

/-!
# Specification vocabulary: the component a row of a mixture was observed in
-/

namespace Cgpm2.Spec

/-- `comp` is the component of cluster `k`: of a finite mixture the `k`-th one, of a flexible
mixture the one made for `k`, or the base if none was made yet. -/
def IsComponent {n : Nat} : Cgpm (n + 1) → Val → Cgpm n → Prop
  | .finMix m, k, comp => ∃ j : Nat, k = .num (j : ℚ) ∧ m.array.cgpms[j]? = some comp
  | .flexMix m, k, comp => comp = (Dict.get? m.array.cgpms k).getD m.array.base
  | _, _, _ => False

/-- The samples in what `simulate` returned. -/
def samplesOf : SimOut → List (Dict Var Val)
  | .one s => [s]
  | .many l => l

/-- `simulate` answered in the form asked for: one sample for `N=None`, else a list. -/
def WellFormed : Option Nat → SimOut → Prop
  | none, .one _ => True
  | some _, .many _ => True
  | _, _ => False

/-- The same samples with the value of one more variable. -/
def withValue (v : Var) (x : Val) : SimOut → SimOut
  | .one s => .one (Dict.set s v x)
  | .many l => .many (l.map fun s => Dict.set s v x)

/-- Samples of no variable. -/
def noValues : Option Nat → SimOut
  | none => .one []
  | some n => .many (List.replicate n [])

/-- The variables of `l` that are among `outs`. -/
def onlyVars (outs l : List Var) : List Var := l.filter (fun v => decide (v ∈ outs))

end Cgpm2.Spec
