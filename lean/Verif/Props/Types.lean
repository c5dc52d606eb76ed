import Verif.Lemmas.Gibbs
import Verif.Lemmas.ConcreteViews

/-!
# Property C96: inference keeps the types of the columns and makes no rows
-/

namespace Cgpm2.Props
open Spec Views

/-- C96: any calls of the kernels, `transition` and the setters of a GibbsCrossCat, one after the
other, as long as they return: each column is made of primitives of the class it was made of, with
the number of categories it had. -/
theorem C96_types (ord : Orders) (Z : List Var) (w w' : Progress.World (Gibbs × Rng))
    (h : Tidy Z 3 (whole w.state.1.crosscat)) (hx : IsCrosscat w.state.1.crosscat)
    (hz : ∀ v ∈ columns w.state.1.crosscat, v ∉ Z) (steps : List Step)
    (hm : ∀ s ∈ steps, s.Moves (columns w.state.1.crosscat)) (hr : Returns ord steps w w') :
    SameTypes w.state.1.crosscat w'.state.1.crosscat ∧
      ∀ o ∈ columns w.state.1.crosscat, ∃ p, OfColumn w'.state.1.crosscat o p := by
  have h0 := cc_of_tidy h hx hz
  have hk : Kin w.state.1.crosscat w'.state.1.crosscat := returns_pres hr hm (Kin.refl h0)
  refine ⟨hk.types h0, fun o ho => ?_⟩
  obtain ⟨Z', hc⟩ := hk.cc
  obtain ⟨b, h1, h2, -⟩ := column_prims hc (hk.cols.mem_iff.2 ho)
  exact ⟨b, h1, h2⟩

/-- C96: … and each row of which some view has a value or a cluster is one of which some view had. -/
theorem C96_rows (ord : Orders) (Z : List Var) (w w' : Progress.World (Gibbs × Rng))
    (h : Tidy Z 3 (whole w.state.1.crosscat)) (hx : IsCrosscat w.state.1.crosscat)
    (hz : ∀ v ∈ columns w.state.1.crosscat, v ∉ Z) (steps : List Step)
    (hm : ∀ s ∈ steps, s.Moves (columns w.state.1.crosscat)) (hr : Returns ord steps w w')
    (R : RowId → Prop) (hR : RowsAmong R w.state.1.crosscat) : RowsAmong R w'.state.1.crosscat := by
  have h0 := cc_of_tidy h hx hz
  have hk : Kin w.state.1.crosscat w'.state.1.crosscat := returns_pres hr hm (Kin.refl h0)
  exact hk.among h0 hR

/-- A call that returns: the Categorical column 2 moves to the view of the Normal column 3. -/
example (ord : Orders) (g : Rng) (clock : Nat → ℝ) :
    let steps : List Step := [.setView 2 (some 3)]
    Tidy [5, 6] 3 (whole Concrete.ccat) ∧ IsCrosscat Concrete.ccat ∧
    (∀ v ∈ columns Concrete.ccat, v ∉ [5, 6]) ∧ (∀ s ∈ steps, s.Moves (columns Concrete.ccat)) ∧
    Returns ord steps ⟨(⟨Concrete.ccat, false, []⟩, g), clock⟩ ⟨(⟨Concrete.ccat', false, []⟩, g), clock⟩ ∧
    2 ∈ columns Concrete.ccat ∧ ∃ p, OfColumn Concrete.ccat 2 p := by
  refine ⟨Concrete.ccat_tidy, Concrete.ccat_crosscat, Concrete.ccat_plain, ?_, ?_,
    by simp [Concrete.ccat_columns], ?_⟩
  · intro s hs
    simp only [List.mem_cons, List.not_mem_nil, or_false] at hs
    subst hs
    exact ⟨by simp [Concrete.ccat_columns], by simp [Concrete.ccat_columns]⟩
  · have h1 : Gibbs.setView 2 (some 3) (⟨Concrete.ccat, false, []⟩, g) =
        (.ok (), (⟨Concrete.ccat', false, []⟩, g)) := rfl
    refine .cons (w1 := ⟨(⟨Concrete.ccat', false, []⟩, g), clock⟩) ?_ (.nil _)
    change Progress.World.call (Gibbs.setView 2 (some 3)) _ = _
    unfold Progress.World.call
    dsimp only
    rw [h1]
  · obtain ⟨b, h1, h2, -⟩ := column_prims (cc_of_tidy Concrete.ccat_tidy Concrete.ccat_crosscat Concrete.ccat_plain)
      (o := 2) (by simp [Concrete.ccat_columns])
    exact ⟨b, h1, h2⟩

end Cgpm2.Props
