import Verif.Lemmas.Kernels
import Verif.Lemmas.ConcreteTotal
import Verif.Lemmas.ConcreteSweep

/-!
# C97: inference with a GibbsCrossCat succeeds
-/

namespace Cgpm2.Props
open Spec Views

/-- C97: a GibbsCrossCat can be made from every CrossCat with a column, none of them a NormalUC.  This
takes no random numbers, leaves the CrossCat as it is, and makes grids for all hyperparameters. -/
theorem C97_init (Z : List Var) (x : Crosscat) (h : Tidy Z 3 (whole x)) (hx : IsCrosscat x)
    (hz : ∀ v ∈ columns x, v ∉ Z) (hne : columns x ≠ []) (hc : Collapsed x) (ord : Orders) (constrained : Bool) (g : Rng) :
    ∃ s, Gibbs.init ord x constrained (.ok ()) g = (.ok s, g) ∧ s.crosscat = x ∧ s.constrained = constrained ∧
      HasGrids s := by
  obtain ⟨s, h1, h2, h3⟩ := init_total (c := constrained) ⟨⟨Z, cc_of_tidy h hx hz⟩, hc⟩ hne ord g
  exact ⟨s, h1, h2, h3.con, by rw [h2]; exact h3.cols, h3.crp⟩

example : Tidy [5] 3 (whole Concrete.mono) ∧ IsCrosscat Concrete.mono ∧ (∀ v ∈ columns Concrete.mono, v ∉ [5]) ∧
    columns Concrete.mono ≠ [] ∧ Collapsed Concrete.mono :=
  ⟨Concrete.mono_tidy, Concrete.mono_crosscat, Concrete.mono_plain, by simp [Concrete.mono_columns],
    Concrete.mono_collapsed⟩

/-- C97: any sequence of calls that leaves the columns in their views returns: `transition` for a number
of sweeps with such kernels, the kernels themselves, and the methods that make the grids.  This is so for
all random states, all data without missing values of Bernoulli and Poisson columns, and with constraints. -/
theorem C97_rows_partial (Z : List Var) (w : Progress.World (Gibbs × Rng)) (h : Tidy Z 3 (whole w.state.1.crosscat))
    (hx : IsCrosscat w.state.1.crosscat) (hz : ∀ v ∈ columns w.state.1.crosscat, v ∉ Z)
    (hne : columns w.state.1.crosscat ≠ []) (hr : Ready w.state.1.crosscat) (hc : Collapsed w.state.1.crosscat)
    (hg : HasGrids w.state.1) (ord : Orders)
    (steps : List Step) (ho : ∀ t ∈ steps, t.Ordinary (columns w.state.1.crosscat)) (hs : ∀ t ∈ steps, t.Stays) :
    ∃ w', Returns ord steps w w' := by
  have hcc := cc_of_tidy h hx hz
  exact steps_go ⟨⟨Z, hcc⟩, hr, hc, rowsAmong_keys hcc⟩ hne ord (fun t ht => ⟨ho t ht, hs t ht⟩)
    (c := w.state.1.constrained) ⟨Kin.refl hcc, rfl, hg.columns, hg.crp⟩

/-- Three calls, on the GibbsCrossCat made from a CrossCat with two columns and two rows. -/
example (ord : Orders) (g : Rng) (clock : Nat → ℝ) : ∃ s w', Gibbs.init ord Concrete.mono true (.ok ()) g = (.ok s, g) ∧
    Returns ord [.transition (some 4) none (some ["row_assignments", "hypers_row_divide"]) none none,
      .hypersDistributions (some [2]), .rowAssignments none (some [some 1])] ⟨(s, g), clock⟩ w' := by
  obtain ⟨s, h1, h2, h3, h4⟩ := C97_init [5] _ Concrete.mono_tidy Concrete.mono_crosscat Concrete.mono_plain
    (by simp [Concrete.mono_columns]) Concrete.mono_collapsed ord true g
  obtain ⟨w', h5⟩ := C97_rows_partial [5] ⟨(s, g), clock⟩ (by rw [h2]; exact Concrete.mono_tidy)
    (by rw [h2]; exact Concrete.mono_crosscat) (by rw [h2]; exact Concrete.mono_plain)
    (by rw [h2]; simp [Concrete.mono_columns]) (by rw [h2]; exact Concrete.mono_ready)
    (by rw [h2]; exact Concrete.mono_collapsed) h4 ord
    [.transition (some 4) none (some ["row_assignments", "hypers_row_divide"]) none none,
      .hypersDistributions (some [2]), .rowAssignments none (some [some 1])]
    (by rw [h2, Concrete.mono_columns]; simp [Step.Ordinary]) (by simp [Step.Stays])
  exact ⟨s, w', h1, h5⟩

/-- C97: so does any sequence of such calls and calls that move columns between views, if there are no
constraints and at most 257 columns, and if the integers that may be drawn as cluster variables differ from each
other and from the variables in use. -/
theorem C97_sequence_partial (Z : List Var) (w : Progress.World (Gibbs × Rng)) (h : Tidy Z 3 (whole w.state.1.crosscat))
    (hx : IsCrosscat w.state.1.crosscat) (hz : ∀ v ∈ columns w.state.1.crosscat, v ∉ Z)
    (hne : columns w.state.1.crosscat ≠ []) (hr : Ready w.state.1.crosscat) (hc : Collapsed w.state.1.crosscat)
    (hg : HasGrids w.state.1) (hcon : w.state.1.constrained = false) (hf : (columns w.state.1.crosscat).length ≤ 257)
    (rows : List RowId) (hR : RowsAmong (· ∈ rows) w.state.1.crosscat) (ord : Orders)
    (steps : List Step) (ho : ∀ t ∈ steps, t.Ordinary (columns w.state.1.crosscat))
    (hn : NoClashAmong (steps.map (Step.draws (columns w.state.1.crosscat).length rows.length)).sum
      w.state.2 w.state.1.crosscat) :
    ∃ w', Returns ord steps w w' := by
  have hcc := cc_of_tidy h hx hz
  exact steps_run ⟨⟨Z, hcc⟩, hr, hc, hR⟩ hne hf ord ho ⟨Kin.refl hcc, hcon, hg.columns, hg.crp⟩ hn

/-- A sweep with all kernels, then column 2 gets a view of its own, then column 1 is moved there. -/
example (ord : Orders) (clock : Nat → ℝ) : ∃ s w',
    Gibbs.init ord Concrete.mono false (.ok ()) Concrete.gseq = (.ok s, Concrete.gseq) ∧
    Returns ord [.transition none none none none none, .setView 2 none, .setView 1 (some 2)]
      ⟨(s, Concrete.gseq), clock⟩ w' := by
  obtain ⟨s, h1, h2, h3, h4⟩ := C97_init [5] _ Concrete.mono_tidy Concrete.mono_crosscat Concrete.mono_plain
    (by simp [Concrete.mono_columns]) Concrete.mono_collapsed ord false Concrete.gseq
  obtain ⟨w', h5⟩ := C97_sequence_partial [5] ⟨(s, Concrete.gseq), clock⟩ (by rw [h2]; exact Concrete.mono_tidy)
    (by rw [h2]; exact Concrete.mono_crosscat) (by rw [h2]; exact Concrete.mono_plain)
    (by rw [h2]; simp [Concrete.mono_columns]) (by rw [h2]; exact Concrete.mono_ready)
    (by rw [h2]; exact Concrete.mono_collapsed) h4 h3 (by rw [h2]; simp [Concrete.mono_columns]) [some 0, some 1]
    (by rw [h2]; exact Concrete.mono_among) ord [.transition none none none none none, .setView 2 none, .setView 1 (some 2)]
    (by rw [h2, Concrete.mono_columns]; simp [Step.Ordinary])
    (by rw [h2]; exact Concrete.gseq_apart (by simp [Concrete.mono_columns, Step.draws, kernelDraws]) Concrete.mono_small)
  exact ⟨s, w', h1, h5⟩

end Cgpm2.Props
