import Verif.Lemmas.ConcretePosterior

/-!
# C107: what the score depends on
-/

namespace Cgpm2.Props
open Spec Views Cpp

variable {Z : List Var}

/-! ## C107 the score is a function of the hyperparameters, the table and the partition -/

/-- Two views with the same columns, hyperparameters and cells that put the same rows together have
the same score.  The labels of the clusters, the order of the rows and columns and the calls that
led to the two views play no role. -/
theorem C107_view {view view' : View} (h : Tidy Z 2 view) (h' : Tidy Z 2 view') (hv : IsView view)
    (hv' : IsView view') (hc : SameContents view view') (hp : SamePartition view view') :
    (cgpmI 2).logpdfScore view = (cgpmI 2).logpdfScore view' :=
  score_same (tidy_reg h) (tidy_reg h') hv hv' hc hp

/-- The same for a CrossCat, whatever the order of the views. -/
theorem C107_crosscat {x x' : Crosscat} (h : Tidy Z 3 (whole x)) (h' : Tidy Z 3 (whole x')) (hx : IsCrosscat x)
    (hx' : IsCrosscat x') {l : List View} (hl : l.Perm x'.cgpms)
    (hs : List.Forall₂ (fun v w => SameContents v w ∧ SamePartition v w) x.cgpms l) :
    (cgpmI 3).logpdfScore (whole x) = (cgpmI 3).logpdfScore (whole x') :=
  crosscat_score (tidy_reg h) (tidy_reg h') hx hx' hl hs

/-- Two views the theorem talks about: rows 0 and 1 are in clusters 0 and 1 of one, and in clusters
1 and 0 of the other. -/
example : Tidy [5] 2 (.flexMix Concrete.split5 : Node (Node Prim)) ∧
    Tidy [5] 2 (.flexMix Concrete.swapped5 : Node (Node Prim)) ∧
    SameContents (.flexMix Concrete.split5 : Node (Node Prim)) (.flexMix Concrete.swapped5 : Node (Node Prim)) ∧
    SamePartition (.flexMix Concrete.split5 : Node (Node Prim)) (.flexMix Concrete.swapped5 : Node (Node Prim)) ∧
    (∀ g, heldCell (cgpmI 2) (.flexMix Concrete.split5 : Node (Node Prim)) g (some 1) 5 = some (.num 1)) ∧
    (∀ g, heldCell (cgpmI 2) (.flexMix Concrete.swapped5 : Node (Node Prim)) g (some 1) 5 = some (.num 0)) :=
  ⟨Concrete.split5_tidy, Concrete.swapped5_tidy, Concrete.split5_swapped5, Concrete.split5_partition,
    fun _ => rfl, fun _ => rfl⟩

end Cgpm2.Props
