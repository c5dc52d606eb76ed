import Verif.Lemmas.Accept
import Verif.Lemmas.ConcreteTower
import Verif.Lemmas.TidyLaws

/-!
# Concrete tidy models, used by the `example`s beside the theorems (helpers)
-/

namespace Cgpm2.Concrete
open Spec Props

theorem norm0_tidy : Tidy [5] 0 (.normal norm0 : Prim) :=
  .prim0 norm0_legally (by simp [Prim.inputs, norm0]) (by simp [Prim.outputs, norm0, Prim.kind])

theorem cat0_tidy : Tidy [5] 0 (.categorical (Categorical.init [1] [] [] [] 3) : Prim) :=
  .prim0 cat0_legally rfl (by simp [Prim.outputs, Categorical.init, Prim.kind])

theorem block2_tidy : Tidy [5] 1 (.product block2 : Node Prim) :=
  .product (n := 0) (cs := [.normal norm0, .categorical (Categorical.init [1] [] [] [] 3)])
    (by
      intro c hc
      rcases List.mem_cons.1 hc with rfl | hc
      · exact norm0_tidy
      · rw [List.mem_singleton.1 hc]
        exact cat0_tidy)
    (by simp) block2_init

theorem block2_all {P : Prim → Prop} (h1 : P (.normal norm0))
    (h2 : P (.categorical (Categorical.init [1] [] [] [] 3))) : ∀ c ∈ block2.cgpms, P c := by
  intro c hc
  simp only [block2, List.mem_cons, List.not_mem_nil, or_false] at hc
  rcases hc with rfl | rfl
  · exact h1
  · exact h2

theorem block2_outputs : (cgpmI 1).outputs (.product block2 : Node Prim) = [3, 1] := rfl

theorem view_outputs : (cgpmI 2).outputs (.flexMix view : Node (Node Prim)) = [5, 3, 1] := rfl

theorem block2_empty (r : RowId) : HoldsNothing (cgpmI 1) (.product block2 : Node Prim) r := by
  refine (holdsNothing_iff (cgpmTLaws [5] 1) (tidy_reg block2_tidy) r).2 fun v => ?_
  exact ProdTab.cell_none_iff.2 (block2_all
    (show (primTab [5]).cell (.normal norm0) r v = none by simp [primTab, Prim.data, norm0])
    (show (primTab [5]).cell (.categorical (Categorical.init [1] [] [] [] 3)) r v = none by
      simp [primTab, Prim.data, Categorical.init]))

theorem view_tidy : Tidy [5] 2 (.flexMix view : Node (Node Prim)) :=
  .flexMix (n := 1) crp0_legally rfl (.inl rfl) (by simp [Prim.outputs, Crp.init]) rfl block2_tidy
    block2_empty block2_score
    (by rw [block2_outputs]; simp [Prim.outputs, Crp.init])
    rfl

theorem view_empty (r : RowId) : HoldsNothing (cgpmI 2) (.flexMix view : Node (Node Prim)) r := by
  refine (holdsNothing_iff (cgpmTLaws [5] 2) (tidy_reg view_tidy) r).2 fun v => ?_
  change (if v = view.indexer then none else none) = (none : Option Val)
  split <;> rfl

/-- A row for the view: cluster 0, column 3 and column 1. -/
def row0 : Dict Var Val := [(5, .num 0), (3, .num (1/2)), (1, .num 2)]

theorem row0_whole : WholeClusters [5] row0 := by
  intro v hv x hx
  rw [List.mem_singleton.1 hv] at hx
  simp only [row0, Dict.get?_cons, if_true, Option.some.injEq] at hx
  exact ⟨0, by rw [← hx]; simp⟩

theorem block2_fits : Fits 1 (.product block2 : Node Prim) row0 := by
  refine block2_all (P := fun c => (∀ v ∈ c.outputs, Dict.get? row0 v = none) ∨
    ∃ v x, c.outputs = [v] ∧ Dict.get? row0 v = some x ∧ Accepts c x) (.inr ?_) (.inr ?_)
  · exact ⟨3, .num (1/2), by simp [Prim.outputs, norm0], by simp [row0, Dict.get?_cons], trivial⟩
  · refine ⟨1, .num 2, rfl, by simp [row0, Dict.get?_cons], ?_⟩
    exact ⟨2, by simp [Categorical.init], by simp⟩

theorem view_fits : Fits 2 (.flexMix view : Node (Node Prim)) row0 := by
  refine ⟨5, 0, rfl, by simp [row0, Dict.get?_cons], ?_, ?_⟩
  · have h0 : truncate 0 = 0 := by have := truncate_intCast 0; simpa using this
    simp [Accepts, view, Crp.init, NextTable, h0]
  · exact block2_fits

theorem view_observes (r : RowId) (g : Rng) : ∃ c' g',
    (cgpmI 2).observe r row0 [] ((.flexMix view : Node (Node Prim)), g) = (.ok (), (c', g')) := by
  obtain ⟨s', g', h⟩ := fits_acc [5] 2 (.flexMix view) r row0 g (tidy_reg view_tidy)
    ((holdsNothing_iff (cgpmTLaws [5] 2) (tidy_reg view_tidy) r).1 (view_empty r))
    (by simp [row0, Dict.keys]) view_fits
  have h : (cgpmI 2).observe r (only [5, 3, 1] row0) [] ((.flexMix view : Node (Node Prim)), g) =
    (.ok (), (s', g')) := h
  rw [only_self (by simp [row0, Dict.keys])] at h
  exact ⟨s', g', h⟩

/-- A finite mixture of two such blocks, its rows divided by a coin. -/
noncomputable def finView : FinMix (Node Prim) :=
  ⟨.bernoulli (Bernoulli.init [5] [] [] []), ⟨[.product block2, .product block2], 5, []⟩, []⟩

theorem bern0_legally : LegallyReachable (.bernoulli (Bernoulli.init [5] [] [] [])) :=
  ⟨_, [], .bernoulli .., by simp [LegalHypers, Bernoulli.init, Dict.get?], rfl⟩

theorem finView_all {P : Node Prim → Prop} (h : P (.product block2)) :
    ∀ c ∈ finView.array.cgpms, P c := by
  intro c hc
  simp only [finView, List.mem_cons, List.not_mem_nil, or_false, or_self] at hc
  rw [hc]; exact h

theorem finView_tidy : Tidy [5] 2 (.finMix finView : Node (Node Prim)) := by
  have hall : ∀ c ∈ [(.product block2 : Node Prim), .product block2], c = .product block2 := by
    simp
  refine .finMix (n := 1) (cs := [(.product block2 : Node Prim), .product block2]) bern0_legally rfl
    (.inr rfl) (by simp [Prim.outputs, Bernoulli.init]) rfl ?_ ?_ ?_ ?_ rfl
  · intro c hc; rw [hall c hc]; exact block2_tidy
  · intro c hc; rw [hall c hc]; exact block2_empty
  · intro c hc c' hc'; rw [hall c hc, hall c' hc']
  · intro c hc; rw [hall c hc, block2_outputs]; simp [Prim.outputs, Bernoulli.init]

theorem finView_empty (r : RowId) : HoldsNothing (cgpmI 2) (.finMix finView : Node (Node Prim)) r := by
  refine (holdsNothing_iff (cgpmTLaws [5] 2) (tidy_reg finView_tidy) r).2 fun v => ?_
  change (if v = finView.indexer then none else none) = (none : Option Val)
  split <;> rfl

theorem finView_observes (r : RowId) (g : Rng) : ∃ c' g',
    (cgpmI 2).observe r row0 [] ((.finMix finView : Node (Node Prim)), g) = (.ok (), (c', g')) := by
  obtain ⟨s', g', h⟩ := fits_acc [5] 2 (.finMix finView) r row0 g (tidy_reg finView_tidy)
    ((holdsNothing_iff (cgpmTLaws [5] 2) (tidy_reg finView_tidy) r).1 (finView_empty r))
    (by simp [row0, Dict.keys])
    ⟨5, 0, _, rfl, by simp [row0, Dict.get?_cons], rfl, block2_fits⟩
  have h : (cgpmI 2).observe r (only [5, 3, 1] row0) [] ((.finMix finView : Node (Node Prim)), g) =
    (.ok (), (s', g')) := h
  rw [only_self (by simp [row0, Dict.keys])] at h
  exact ⟨s', g', h⟩

end Cgpm2.Concrete
