import Verif.Lemmas.Clusterings
import Verif.Lemmas.ConcreteUpdate
import Verif.Lemmas.ConcreteExport

/-!
# Concrete views of two rows (helpers for the examples)
-/

namespace Cgpm2.Concrete
open Spec Views Cpp

theorem empty5_tidy : Tidy [5] 2 (catView 5 [1]) := catView_tidy (by simp) (by simp) (by simp) rfl

/-- Two rows of the view of column 1, row 0 with the value 2 and row 1 with the value 1, in clusters
`a` and `b`. -/
noncomputable def split5 : FlexMix (Node Prim) :=
  ⟨.crp { Crp.init [5] [] [] [] with data := [(some 0, 0), (some 1, 1)], N := 2, counts := [(0, 1), (1, 1)] },
   { FlexArray.init (.product ⟨[catCol 1]⟩) 5 with
      cgpms := [(.num 0, .product ⟨[catWith 1 [(0, 2)]]⟩), (.num 1, .product ⟨[catWith 1 [(1, 1)]]⟩)],
      rowidToIndex := [(some 0, .num 0), (some 1, .num 1)] },
   [(some 0, .num 0), (some 1, .num 1)]⟩

noncomputable def swapped5a : FlexMix (Node Prim) :=
  ⟨.crp { Crp.init [5] [] [] [] with data := [(some 1, 0)], N := 1, counts := [(0, 1)] },
   { FlexArray.init (.product ⟨[catCol 1]⟩) 5 with
      cgpms := [(.num 0, .product ⟨[catWith 1 [(1, 1)]]⟩)],
      rowidToIndex := [(some 1, .num 0)] },
   [(some 1, .num 0)]⟩

/-- The same with the labels exchanged, observed in the opposite order. -/
noncomputable def swapped5 : FlexMix (Node Prim) :=
  ⟨.crp { Crp.init [5] [] [] [] with data := [(some 1, 0), (some 0, 1)], N := 2, counts := [(0, 1), (1, 1)] },
   { FlexArray.init (.product ⟨[catCol 1]⟩) 5 with
      cgpms := [(.num 0, .product ⟨[catWith 1 [(1, 1)]]⟩), (.num 1, .product ⟨[catWith 1 [(0, 2)]]⟩)],
      rowidToIndex := [(some 1, .num 0), (some 0, .num 1)] },
   [(some 1, .num 0), (some 0, .num 1)]⟩

theorem duo5a_tidy : Tidy [5] 2 (.flexMix duo5a : Node (Node Prim)) :=
  .observe (r := some 0) (o := [(5, .num 0), (1, .num 2)]) (i := []) (g := fun _ => ⟨0, 0⟩)
    (g' := fun _ => ⟨0, 0⟩) empty5_tidy (mono_whole (a := 0) rfl) rfl

theorem duo5_tidy : Tidy [5] 2 (.flexMix duo5 : Node (Node Prim)) :=
  .observe (r := some 1) (o := [(5, .num 0), (1, .num 1)]) (i := []) (g := fun _ => ⟨0, 0⟩)
    (g' := fun _ => ⟨0, 0⟩) duo5a_tidy (mono_whole (a := 0) rfl) rfl

theorem split5_tidy : Tidy [5] 2 (.flexMix split5 : Node (Node Prim)) :=
  .observe (r := some 1) (o := [(5, .num 1), (1, .num 1)]) (i := []) (g := fun _ => ⟨0, 0⟩)
    (g' := fun _ => ⟨0, 0⟩) duo5a_tidy (mono_whole (a := 1) rfl) rfl

theorem swapped5a_tidy : Tidy [5] 2 (.flexMix swapped5a : Node (Node Prim)) :=
  .observe (r := some 1) (o := [(5, .num 0), (1, .num 1)]) (i := []) (g := fun _ => ⟨0, 0⟩)
    (g' := fun _ => ⟨0, 0⟩) empty5_tidy (mono_whole (a := 0) rfl) rfl

theorem swapped5_tidy : Tidy [5] 2 (.flexMix swapped5 : Node (Node Prim)) :=
  .observe (r := some 0) (o := [(5, .num 1), (1, .num 2)]) (i := []) (g := fun _ => ⟨0, 0⟩)
    (g' := fun _ => ⟨0, 0⟩) swapped5a_tidy (mono_whole (a := 1) rfl) rfl

theorem duo5_view : IsView (.flexMix duo5 : Node (Node Prim)) := ⟨duo5, ⟨[catCol 1]⟩, rfl, rfl, rfl⟩
theorem split5_view : IsView (.flexMix split5 : Node (Node Prim)) := ⟨split5, ⟨[catCol 1]⟩, rfl, rfl, rfl⟩
theorem swapped5_view : IsView (.flexMix swapped5 : Node (Node Prim)) := ⟨swapped5, ⟨[catCol 1]⟩, rfl, rfl, rfl⟩

theorem split5_cluster (r : RowId) : Views.clusterOf (.flexMix split5 : Node (Node Prim)) r =
    Dict.get? [(some 0, .num 0), (some 1, .num 1)] r := rfl
theorem swapped5_cluster (r : RowId) : Views.clusterOf (.flexMix swapped5 : Node (Node Prim)) r =
    Dict.get? [(some 1, .num 0), (some 0, .num 1)] r := rfl
theorem duo5_cluster (r : RowId) : Views.clusterOf (.flexMix duo5 : Node (Node Prim)) r =
    Dict.get? [(some 0, .num 0), (some 1, .num 0)] r := rfl

theorem two_cells {r : RowId} {x y : Val} : Dict.get? [(some 0, x), (some 1, y)] r =
    if r = some 0 then some x else if r = some 1 then some y else none := by
  simp [Dict.get?, eq_comm]

/-- The cells of a view of the two rows. -/
theorem cells_of {v : View} (h : Tidy [5] 2 v) (hv : IsView v) {x y : Val}
    (hc : ∀ r, r ≠ some 0 → r ≠ some 1 → Views.clusterOf v r = none) (h0 : (cgpmTab [5] 2).cell v (some 0) 1 = some x)
    (h1 : (cgpmTab [5] 2).cell v (some 1) 1 = some y) (g : Rng) (r : RowId) : heldCell (cgpmI 2) v g r 1 =
    if r = some 0 then some x else if r = some 1 then some y else none := by
  rw [heldCell_eq (cgpmTLaws [5] 2) (tidy_reg h)]
  by_cases e0 : r = some 0
  · subst e0; rw [h0]; rfl
  by_cases e1 : r = some 1
  · subst e1; rw [h1]; rfl
  rw [if_neg e0, if_neg e1]
  exact cell_absent (tidy_reg h) hv (hc r e0 e1) 1

theorem duo5_cells (g : Rng) (r : RowId) : heldCell (cgpmI 2) (.flexMix duo5 : Node (Node Prim)) g r 1 =
    if r = some 0 then some (.num 2) else if r = some 1 then some (.num 1) else none :=
  cells_of duo5_tidy duo5_view (fun r h0 h1 => by rw [duo5_cluster, two_cells, if_neg h0, if_neg h1]) rfl rfl g r

theorem split5_cells (g : Rng) (r : RowId) : heldCell (cgpmI 2) (.flexMix split5 : Node (Node Prim)) g r 1 =
    if r = some 0 then some (.num 2) else if r = some 1 then some (.num 1) else none :=
  cells_of split5_tidy split5_view (fun r h0 h1 => by rw [split5_cluster, two_cells, if_neg h0, if_neg h1]) rfl rfl g r

theorem swapped5_cells (g : Rng) (r : RowId) : heldCell (cgpmI 2) (.flexMix swapped5 : Node (Node Prim)) g r 1 =
    if r = some 0 then some (.num 2) else if r = some 1 then some (.num 1) else none :=
  cells_of swapped5_tidy swapped5_view (fun r h0 h1 => by
    rw [swapped5_cluster]; simp [Dict.get?, Ne.symm h0, Ne.symm h1]) rfl rfl g r

/-- The primitives of the views. -/
def Of5 (p : Prim) : Prop := SameModel (crpCol 5) p ∨ SameModel (catCol 1) p

theorem of5_same {p q : Prim} (hp : Of5 p) (hq : Of5 q) (h : p.outputs = q.outputs) : SameModel p q := by
  rcases hp with hp | hp <;> rcases hq with hq | hq
  · exact hp.symm.trans hq
  · have := hp.outputs.trans (h.trans hq.outputs.symm)
    cases this
  · have := hp.outputs.trans (h.trans hq.outputs.symm)
    cases this
  · exact hp.symm.trans hq

theorem of5_crp {c : Crp} (h : c.outputs = [5]) (h' : c.alpha = 1) : Of5 (.crp c) := .inl ⟨h.symm, h'.symm⟩
theorem of5_cat (l : List (Nat × Fin 3)) : Of5 (catWith 1 l) := .inr ⟨rfl, rfl, rfl⟩
theorem of5_base : Of5 (catCol 1) := .inr ⟨rfl, rfl, rfl⟩

theorem duo5_prims : ∀ p ∈ primsIn 2 (.flexMix duo5 : Node (Node Prim)), Of5 p := by
  change ∀ p ∈ [duo5.rowDivide, catWith 1 [(0, 2), (1, 1)], catCol 1], Of5 p
  simp only [List.forall_mem_cons, List.not_mem_nil, false_imp_iff, implies_true, and_true]
  exact ⟨of5_crp rfl rfl, of5_cat _, of5_base⟩

theorem split5_prims : ∀ p ∈ primsIn 2 (.flexMix split5 : Node (Node Prim)), Of5 p := by
  change ∀ p ∈ [split5.rowDivide, catWith 1 [(0, 2)], catWith 1 [(1, 1)], catCol 1], Of5 p
  simp only [List.forall_mem_cons, List.not_mem_nil, false_imp_iff, implies_true, and_true]
  exact ⟨of5_crp rfl rfl, of5_cat _, of5_cat _, of5_base⟩

theorem swapped5_prims : ∀ p ∈ primsIn 2 (.flexMix swapped5 : Node (Node Prim)), Of5 p := by
  change ∀ p ∈ [swapped5.rowDivide, catWith 1 [(1, 1)], catWith 1 [(0, 2)], catCol 1], Of5 p
  simp only [List.forall_mem_cons, List.not_mem_nil, false_imp_iff, implies_true, and_true]
  exact ⟨of5_crp rfl rfl, of5_cat _, of5_cat _, of5_base⟩

theorem split5_swapped5 : SameContents (.flexMix split5 : Node (Node Prim)) (.flexMix swapped5 : Node (Node Prim)) where
  cluster := rfl
  columns := .refl _
  hypers p hp q hq h := of5_same (split5_prims p hp) (swapped5_prims q hq) h
  cells g r o ho := by
    have ho : o ∈ [(1 : Var)] := ho
    rw [List.mem_singleton.1 ho, split5_cells, swapped5_cells]

theorem duo5_split5 : SameContents (.flexMix duo5 : Node (Node Prim)) (.flexMix split5 : Node (Node Prim)) where
  cluster := rfl
  columns := .refl _
  hypers p hp q hq h := of5_same (duo5_prims p hp) (split5_prims q hq) h
  cells g r o ho := by
    have ho : o ∈ [(1 : Var)] := ho
    rw [List.mem_singleton.1 ho, duo5_cells, split5_cells]

theorem split5_partition : SamePartition (.flexMix split5 : Node (Node Prim)) (.flexMix swapped5 : Node (Node Prim)) := by
  rw [samePartition_iff (tidy_reg split5_tidy) (tidy_reg swapped5_tidy)]
  intro r r'
  simp only [split5_cluster, swapped5_cluster]
  have e : ∀ r : RowId, Dict.get? [(some 1, Val.num 0), (some 0, Val.num 1)] r =
      if r = some 0 then some (.num 1) else if r = some 1 then some (.num 0) else none := by
    intro r
    by_cases h0 : r = some 0
    · subst h0; rfl
    · simp [Dict.get?, eq_comm, h0]
  simp only [two_cells, e]
  by_cases h0 : r = some 0 <;> by_cases h1 : r = some 1 <;> by_cases h0' : r' = some 0 <;>
    by_cases h1' : r' = some 1 <;> simp_all

end Cgpm2.Concrete
