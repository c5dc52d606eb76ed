import Verif.Lemmas.Gibbs
import Verif.Lemmas.ConcreteViews
import Verif.Props.Progress

/-!
# Property C46: sequences of inference steps on a CrossCat
-/

namespace Cgpm2.Props
open Spec Views

/-- C46: any calls of the kernels, `transition` and the setters of a GibbsCrossCat, one after the
other, as long as they return: the CrossCat at the end has the columns and the cells of the one at
the start, and is well-formed.  If the views had the rows `R`, and the table had no missing cells,
then the views have the rows `R` at the end. -/
theorem C46_sequence (ord : Orders) (Z : List Var) (w w' : Progress.World (Gibbs × Rng))
    (h : Tidy Z 3 (whole w.state.1.crosscat)) (hx : IsCrosscat w.state.1.crosscat)
    (hz : ∀ v ∈ columns w.state.1.crosscat, v ∉ Z) (steps : List Step)
    (hm : ∀ s ∈ steps, s.Moves (columns w.state.1.crosscat)) (hr : Returns ord steps w w') :
    SameTable w.state.1.crosscat w'.state.1.crosscat ∧
      ∀ R, Aligned w.state.1.crosscat R → Complete w.state.1.crosscat R →
        Aligned w'.state.1.crosscat R := by
  have hk := returns_pres hr hm (Kin.refl (cc_of_tidy h hx hz))
  exact ⟨Kin.table hk, Kin.rows hk⟩

/-- Three calls on a GibbsCrossCat with two views and two rows that return, whatever the orders, the
random state and the clock: column 2 moves to the view of column 3, row 1 gets a cluster of its own
in the view of column 3, and one sweep of `transition` with a kernel. -/
example (ord : Orders) (g : Rng) (clock : Nat → ℝ) :
    let steps : List Step := [.setView 2 (some 3), .setRowid (some [3]) false (some 1) none,
      .transition (some 1) none (some ["hypers_column_divide"]) none none]
    Tidy [5, 6] 3 (whole Concrete.ccat) ∧ IsCrosscat Concrete.ccat ∧
    (∀ v ∈ columns Concrete.ccat, v ∉ [5, 6]) ∧ (∀ s ∈ steps, s.Moves (columns Concrete.ccat)) ∧
    (∃ R, Aligned Concrete.ccat R) ∧ ∃ w', Returns ord steps ⟨(⟨Concrete.ccat, false, []⟩, g), clock⟩ w' := by
  refine ⟨Concrete.ccat_tidy, Concrete.ccat_crosscat, Concrete.ccat_plain, ?_,
    ⟨_, Concrete.ccat_aligned⟩, ?_⟩
  · intro s hs
    simp only [List.mem_cons, List.not_mem_nil, or_false] at hs
    rcases hs with rfl | rfl | rfl
    · exact ⟨by simp [Concrete.ccat_columns], by simp [Concrete.ccat_columns]⟩
    · exact trivial
    · simp [Step.Moves]
  · have h1 : Gibbs.setView 2 (some 3) (⟨Concrete.ccat, false, []⟩, g) =
        (.ok (), (⟨Concrete.ccat', false, []⟩, g)) := rfl
    obtain ⟨x', h2⟩ : ∃ x', onView 1 (setRowidComponent (cgpmI 1) false (some 1) none)
        (Concrete.ccat', g) = (.ok (), (x', g)) := ⟨_, rfl⟩
    have hv : ord.views [1] = [1] :=
      List.perm_singleton.1 (List.perm_of_nodup_nodup_toFinset_eq (ord.views_nodup _) (by simp)
        (by ext; simp [ord.views_mem]))
    have h3 : Gibbs.setRowid ord (some [3]) false (some 1) none (⟨Concrete.ccat', false, []⟩, g) =
        (.ok (), (⟨x', false, []⟩, g)) := by
      unfold Gibbs.setRowid
      rw [Py.get_bind]
      dsimp only
      rw [show rowMixtureIndexes ord Concrete.ccat' (some [3]) = .ok (ord.views [1]) from rfl, hv,
        Py.lift_bind]
      have h4 : Gibbs.onCrosscat (onView 1 (setRowidComponent (cgpmI 1) false (some 1) none))
          (⟨Concrete.ccat', false, []⟩, g) = (.ok (), (⟨x', false, []⟩, g)) := by
        unfold Gibbs.onCrosscat
        rw [h2]
      change ((Py.mapL _ [1] >>= fun _ => pure ()) : Py (Gibbs × Rng) Unit) _ = _
      rw [Py.bind_apply, Py.mapL]
      simp only [Py.bind_apply, h4]
      rfl
    obtain ⟨r, h5, -, h6⟩ := C47_sweeps [Gibbs.transitionHypersColumnDivide] 1 le_rfl
      (⟨(⟨x', false, []⟩, g), clock⟩ : Progress.World (Gibbs × Rng))
    have h7 : r.1 = .ok () := congrArg Prod.fst h6
    refine ⟨r.2, .cons (w1 := ⟨(⟨Concrete.ccat', false, []⟩, g), clock⟩) ?_
      (.cons (w1 := ⟨(⟨x', false, []⟩, g), clock⟩) ?_ (.cons (w1 := r.2) ?_ (.nil _)))⟩
    · change Progress.World.call _ _ = _
      unfold Progress.World.call
      rw [h1]
    · change Progress.World.call _ _ = _
      unfold Progress.World.call
      rw [h3]
    · change Progress.TransitionGeneric [Gibbs.transitionHypersColumnDivide] (some 1) none _ _
      rw [← h7]
      exact h5

end Cgpm2.Props
