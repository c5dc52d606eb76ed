import Verif.Spec.Hypers

/-!
# Specification vocabulary: hyperparameters on grids
-/

namespace Cgpm2.Spec

/-- The objects `qs` are `ps` after each was given the hyperparameters `h`. -/
def Given (ps : List Prim) (h : Dict String ℝ) (qs : List Prim) : Prop :=
  List.Forall₂ (fun p q => p.setHypers h = (.ok (), q)) ps qs

/-- In how many ways the choice `c` is a choice of one point of each grid: a value that a grid lists
several times counts as often. -/
noncomputable def gridCount (grids : Dict String (List ℝ)) (c : Dict String ℝ) : Nat :=
  ((grids.zip c).map fun ng => List.count ng.2.2 ng.1.2).prod

/-- `exp` of the joint score the objects report with the hyperparameters `c`, times the multiplicity
of `c`. -/
noncomputable def gridWeight (grids : Dict String (List ℝ)) (W : Dict String ℝ → ℝ) (c : Dict String ℝ) : ENNReal :=
  gridCount grids c * ENNReal.ofReal (Real.exp (W c))

end Cgpm2.Spec
