import Verif.Model.Render
import Verif.Lemmas.ConcreteTable
import Verif.Lemmas.TidyLaws

/-!
# Concrete views with rows, used beside the theorems on rendering (helpers)
-/

namespace Cgpm2.Concrete
open Spec Props

/-- A view of one categorical column, its rows divided by a CRP. -/
noncomputable def tile : Product Prim := ⟨[.categorical (Categorical.init [1] [] [] [] 3)]⟩
noncomputable def pane : FlexMix (Node Prim) :=
  ⟨.crp (Crp.init [5] [] [] []), FlexArray.init (.product tile) 5, []⟩

noncomputable def tileOf (rows : List (Nat × Fin 3)) : Node Prim := .product ⟨[.categorical
  { Categorical.init [1] [] [] [] 3 with
    data := rows.map fun r => (some r.1, .num ((r.2 : Nat) : ℚ)), N := rows.length,
    counts := [(rows.map (·.2)).count 0, (rows.map (·.2)).count 1, (rows.map (·.2)).count 2] }]⟩

/-- Row 0 is observed in cluster 0. -/
noncomputable def pane0 : FlexMix (Node Prim) :=
  ⟨.crp { Crp.init [5] [] [] [] with data := [(some 0, 0)], N := 1, counts := [(0, 1)] },
   { FlexArray.init (.product tile) 5 with
      cgpms := [(.num 0, tileOf [(0, 2)])], rowidToIndex := [(some 0, .num 0)] },
   [(some 0, .num 0)]⟩
/-- Then row 1 in cluster 1. -/
noncomputable def pane1 : FlexMix (Node Prim) :=
  ⟨.crp { Crp.init [5] [] [] [] with data := [(some 0, 0), (some 1, 1)], N := 2, counts := [(0, 1), (1, 1)] },
   { FlexArray.init (.product tile) 5 with
      cgpms := [(.num 0, tileOf [(0, 2)]), (.num 1, tileOf [(1, 1)])],
      rowidToIndex := [(some 0, .num 0), (some 1, .num 1)] },
   [(some 0, .num 0), (some 1, .num 1)]⟩
/-- Then row 2 in cluster 0. -/
noncomputable def pane2 : FlexMix (Node Prim) :=
  ⟨.crp { Crp.init [5] [] [] [] with data := [(some 0, 0), (some 1, 1), (some 2, 0)], N := 3, counts := [(0, 2), (1, 1)] },
   { FlexArray.init (.product tile) 5 with
      cgpms := [(.num 0, tileOf [(0, 2), (2, 2)]), (.num 1, tileOf [(1, 1)])],
      rowidToIndex := [(some 0, .num 0), (some 1, .num 1), (some 2, .num 0)] },
   [(some 0, .num 0), (some 1, .num 1), (some 2, .num 0)]⟩

theorem tile_tidy : Tidy [5] 1 (.product tile : Node Prim) :=
  .product (n := 0) (cs := [.categorical (Categorical.init [1] [] [] [] 3)])
    (by
      intro c hc
      rw [List.mem_singleton.1 hc]
      exact cat0_tidy)
    (by simp) rfl

theorem tile_all {P : Prim → Prop} (h : P (.categorical (Categorical.init [1] [] [] [] 3))) :
    ∀ c ∈ tile.cgpms, P c := by
  intro c hc
  simp only [tile, List.mem_cons, List.not_mem_nil, or_false] at hc
  rw [hc]; exact h

theorem tile_empty (r : RowId) : HoldsNothing (cgpmI 1) (.product tile : Node Prim) r := by
  refine (holdsNothing_iff (cgpmTLaws [5] 1) (tidy_reg tile_tidy) r).2 fun v => ?_
  exact ProdTab.cell_none_iff.2 (tile_all
    (show (primTab [5]).cell (.categorical (Categorical.init [1] [] [] [] 3)) r v = none by
      simp [primTab, Prim.data, Categorical.init]))

theorem tile_score : (cgpmI 1).logpdfScore (.product tile : Node Prim) = .ok (.fin 0) := by
  have h2 := C13_fresh (.categorical 1 [] [] [] 3)
    (by simp [LegalHypers, Categorical.init, Dict.get?])
  change Product.logpdfScore primI tile = _
  simp only [Product.logpdfScore, tile, primI]
  rw [List.mapM_cons, h2]
  simp only [List.mapM_nil, bind, Except.bind, pure, Except.pure, Fl.sum_eq]
  have h0 : (Fl.fin 0) = (0 : Fl) := rfl
  rw [h0]
  simp

theorem pane_tidy : Tidy [5] 2 (.flexMix pane : Node (Node Prim)) :=
  .flexMix (n := 1) crp0_legally rfl (.inl rfl) (by simp [Prim.outputs, Crp.init]) rfl tile_tidy
    tile_empty tile_score
    (by
      rw [show (cgpmI 1).outputs (.product tile : Node Prim) = [1] from rfl]
      simp [Prim.outputs, Crp.init])
    rfl

theorem pane_whole (b : ℚ) (k : Int) : WholeClusters [5] [(5, .num (k : ℚ)), (1, .num b)] := by
  intro v hv x hx
  obtain rfl : v = 5 := by simpa using hv
  rw [Dict.get?_cons, if_pos rfl] at hx
  cases hx
  exact ⟨k, rfl⟩

theorem pane0_observe (g : Rng) : (cgpmI 2).observe (some 0) [(5, .num 0), (1, .num 2)] []
    ((.flexMix pane : Node (Node Prim)), g) = (.ok (), ((.flexMix pane0 : Node (Node Prim)), g)) := rfl
theorem pane1_observe (g : Rng) : (cgpmI 2).observe (some 1) [(5, .num 1), (1, .num 1)] []
    ((.flexMix pane0 : Node (Node Prim)), g) = (.ok (), ((.flexMix pane1 : Node (Node Prim)), g)) := rfl
theorem pane2_observe (g : Rng) : (cgpmI 2).observe (some 2) [(5, .num 0), (1, .num 2)] []
    ((.flexMix pane1 : Node (Node Prim)), g) = (.ok (), ((.flexMix pane2 : Node (Node Prim)), g)) := rfl

theorem pane0_tidy : Tidy [5] 2 (.flexMix pane0 : Node (Node Prim)) :=
  .observe pane_tidy (by simpa using pane_whole 2 0) (pane0_observe fun _ => ⟨0, 0⟩)
theorem pane1_tidy : Tidy [5] 2 (.flexMix pane1 : Node (Node Prim)) :=
  .observe pane0_tidy (by simpa using pane_whole 1 1) (pane1_observe fun _ => ⟨0, 0⟩)
theorem pane2_tidy : Tidy [5] 2 (.flexMix pane2 : Node (Node Prim)) :=
  .observe pane1_tidy (by simpa using pane_whole 2 0) (pane2_observe fun _ => ⟨0, 0⟩)

/-- A view holding the cluster of row 0 and none of its data. -/
noncomputable def bare : FlexMix (Node Prim) :=
  ⟨.crp { Crp.init [5] [] [] [] with data := [(some 0, 0)], N := 1, counts := [(0, 1)] },
   { FlexArray.init (.product tile) 5 with
      cgpms := [(.num 0, .product tile)], rowidToIndex := [(some 0, .num 0)] },
   [(some 0, .num 0)]⟩

theorem bare_observe (g : Rng) : (cgpmI 2).observe (some 0) [(5, .num 0)] []
    ((.flexMix pane : Node (Node Prim)), g) = (.ok (), ((.flexMix bare : Node (Node Prim)), g)) := rfl

theorem bare_tidy : Tidy [5] 2 (.flexMix bare : Node (Node Prim)) := by
  refine .observe pane_tidy ?_ (bare_observe fun _ => ⟨0, 0⟩)
  intro v hv x hx
  obtain rfl : v = 5 := by simpa using hv
  rw [Dict.get?_cons, if_pos rfl] at hx
  cases hx
  exact ⟨0, by simp⟩

end Cgpm2.Concrete
