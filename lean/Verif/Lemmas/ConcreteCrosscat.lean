import Verif.Lemmas.ConcreteDensity
import Verif.Lemmas.TidyLaws

/-!
# A concrete product of two mixtures, used by the `example`s beside the theorems (helpers)
-/

namespace Cgpm2.Concrete
open Spec Props

/-- A categorical column 2. -/
noncomputable def col2 : Node Prim := .prim (.categorical (Categorical.init [2] [] [] [] 3))

/-- A finite mixture of two such columns, its rows divided by a coin. -/
noncomputable def coinView : FinMix (Node Prim) :=
  ⟨.bernoulli (Bernoulli.init [6] [] [] []), ⟨[col2, col2], 6, []⟩, []⟩

/-- Two views: column 5, 3 and 1 on the one hand, 6 and 2 on the other. -/
noncomputable def twoViews : Product (Node (Node Prim)) := ⟨[.finMix finView, .finMix coinView]⟩

theorem finView_tidy' : Tidy [5, 6] 2 (.finMix finView : Node (Node Prim)) := by
  have hall : ∀ c ∈ [(.product block2 : Node Prim), .product block2], c = .product block2 := by
    simp
  refine .finMix (n := 1) (cs := [(.product block2 : Node Prim), .product block2]) bern0_legally rfl
    (.inr rfl) (by simp [Prim.outputs, Bernoulli.init]) rfl ?_ ?_ ?_ ?_ rfl
  · intro c hc; rw [hall c hc]; exact block2_tidy' (by decide) (by decide)
  · intro c hc; rw [hall c hc]; exact block2_empty
  · intro c hc c' hc'; rw [hall c hc, hall c' hc']
  · intro c hc; rw [hall c hc, block2_outputs]; simp [Prim.outputs, Bernoulli.init]

theorem col2_tidy : Tidy [5, 6] 1 col2 :=
  .prim (n := 0) ⟨_, [], .categorical .., by simp [LegalHypers, Categorical.init, Dict.get?], rfl⟩ rfl
    (by simp [Prim.outputs, Categorical.init, Prim.kind])

theorem col2_empty (r : RowId) : HoldsNothing (cgpmI 1) col2 r := by
  refine (holdsNothing_iff (cgpmTLaws [5, 6] 1) (tidy_reg col2_tidy) r).2 fun v => ?_
  show (primTab [5, 6]).cell (.categorical (Categorical.init [2] [] [] [] 3)) r v = none
  simp [primTab, Prim.data, Categorical.init]

theorem coinView_tidy : Tidy [5, 6] 2 (.finMix coinView : Node (Node Prim)) := by
  have hall : ∀ c ∈ [col2, col2], c = col2 := by simp
  refine .finMix (n := 1) (cs := [col2, col2]) bern6_legally rfl
    (.inr rfl) (by simp [Prim.outputs, Bernoulli.init]) rfl ?_ ?_ ?_ ?_ rfl
  · intro c hc; rw [hall c hc]; exact col2_tidy
  · intro c hc; rw [hall c hc]; exact col2_empty
  · intro c hc c' hc'; rw [hall c hc, hall c' hc']
  · intro c hc v hv hv'
    rw [hall c hc] at hv'
    have h1 : v ∈ [2] := hv'
    have h2 : v ∈ [6] := hv
    rw [List.mem_singleton] at h1 h2
    rw [h1] at h2
    exact absurd h2 (by decide)

theorem twoViews_init : Product.init (cgpmI 2)
    [(.finMix finView : Node (Node Prim)), .finMix coinView] = .ok twoViews := rfl

theorem twoViews_tidy : Tidy [5, 6] 3 (.product twoViews : Node (Node (Node Prim))) :=
  .product (n := 2) (cs := [(.finMix finView : Node (Node Prim)), .finMix coinView])
    (by
      intro c hc
      rcases List.mem_cons.1 hc with rfl | hc
      · exact finView_tidy'
      · rw [List.mem_singleton.1 hc]; exact coinView_tidy) (by simp) twoViews_init

theorem twoViews_empty (r : RowId) :
    HoldsNothing (cgpmI 3) (.product twoViews : Node (Node (Node Prim))) r := by
  refine (holdsNothing_iff (cgpmTLaws [5, 6] 3) (tidy_reg twoViews_tidy) r).2 fun v => ?_
  refine ProdTab.cell_none_iff.2 fun c hc => ?_
  have hc : c ∈ [(.finMix finView : Node (Node Prim)), .finMix coinView] := hc
  rcases List.mem_cons.1 hc with rfl | hc
  · change (if v = finView.indexer then none else none) = (none : Option Val)
    split <;> rfl
  · rw [List.mem_singleton.1 hc]
    change (if v = coinView.indexer then none else none) = (none : Option Val)
    split <;> rfl

theorem coinView_empty (r : RowId) : HoldsNothing (cgpmI 2) (.finMix coinView : Node (Node Prim)) r := by
  refine (holdsNothing_iff (cgpmTLaws [5, 6] 2) (tidy_reg coinView_tidy) r).2 fun v => ?_
  change (if v = coinView.indexer then none else none) = (none : Option Val)
  split <;> rfl

theorem coinView_plausible {k : Int} (hk : k = 0 ∨ k = 1) :
    Plausible 2 (.finMix coinView : Node (Node Prim)) 6 (.num (k : ℚ)) := by
  refine ⟨fun _ => ⟨[0, 1], k, rfl, by simpa using hk, rfl⟩, fun c hc => ?_⟩
  have hc : c ∈ [col2, col2] := hc
  have hall : ∀ c ∈ [col2, col2], c = col2 := by simp
  rw [hall c hc]
  intro h
  have h : (6 : Var) ∈ [2] := h
  exact absurd h (by decide)

theorem coinView_mixture : IsMixture (n := 2) (.finMix coinView : Node (Node Prim)) 6 [0, 1] := ⟨rfl, rfl⟩

end Cgpm2.Concrete
