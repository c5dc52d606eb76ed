import Verif.Model.TransitionHypers
import Verif.Spec.Primitive
import Verif.Spec.Chance

/-!
# Specification vocabulary: hyperparameters shared by the copies of a column
-/

namespace Cgpm2.Spec

/-- The two objects are equal except for their hyperparameters: same class, same rows, same
statistics, same everything else. -/
def SameButHypers : Prim → Prim → Prop
  | .crp a, .crp b => b = { a with alpha := b.alpha }
  | .categorical a, .categorical b => b = { a with alpha := b.alpha }
  | .bernoulli a, .bernoulli b => b = { a with alpha := b.alpha, beta := b.beta }
  | .normal a, .normal b => b = { a with m := b.m, r := b.r, s := b.s, nu := b.nu }
  | .normalUC a, .normalUC b => b = { a with hypers := b.hypers }
  | .poisson a, .poisson b => b = { a with a := b.a, b := b.b }
  | _, _ => False

/-- The hyperparameters the object reports are those of `h`. -/
def HasHypers (p : Prim) (h : Dict String ℝ) : Prop :=
  ∀ n ∈ hyperNames p.kind, ∃ x, Dict.get? h n = some x ∧ Dict.get? p.getHypers n = some x

/-- `s` is the sum of the scores the objects report once each has been given the hyperparameters
`h`. -/
def JointScore (ps : List Prim) (h : Dict String ℝ) (s : ℝ) : Prop :=
  ∃ ss : List ℝ, List.Forall₂ (fun p x => ∃ p', p.setHypers h = (.ok (), p') ∧
    p'.logpdfScore = .ok (.fin x)) ps ss ∧ s = ss.sum

/-- There is a grid for the hyperparameter `n`, it is not empty, and its points are positive unless
`n` is a location. -/
def LegalGrid (grids : Dict String (List ℝ)) (n : String) : Prop :=
  ∃ grid, Dict.get? grids n = some grid ∧ grid ≠ [] ∧ ∀ v ∈ grid, n ≠ "m" → 0 < v

open Classical in
/-- The share of `x` among the entries of `l` when an entry `y` weighs `exp (W y)`; an entry that
occurs several times counts each time. -/
noncomputable def share {α : Type} (l : List α) (W : α → ℝ) (x : α) : ℝ :=
  ((l.filter fun y => y = x).map fun y => Real.exp (W y)).sum / (l.map fun y => Real.exp (W y)).sum

/-- `cells` lists exactly the dicts that take one point from each grid. -/
def Choices (grids : Dict String (List ℝ)) (cells : List (Dict String ℝ)) : Prop :=
  ∀ c, c ∈ cells ↔ List.Forall₂ (fun kg kv => kv.1 = kg.1 ∧ kv.2 ∈ kg.2) grids c

end Cgpm2.Spec
