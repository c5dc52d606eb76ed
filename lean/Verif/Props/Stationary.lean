import Verif.Lemmas.ConcreteClusterings

/-!
# C108: Gibbs sampling of the clusters of a view
-/

namespace Cgpm2.Props
open Spec Views Cpp MeasureTheory

variable {Z : List Var} {μ : Measure Draw} [IsProbabilityMeasure μ]

theorem rearranged_iff {view u : View} : Rearranged Z view u ↔ Fit (Tidy Z 2) Z view u :=
  ⟨fun h => ⟨h.tidy, tidy_reg h.tidy, h.isView, h.contents, h.rows⟩,
    fun h => ⟨h.side, h.isView, h.contents, h.rows⟩⟩

theorem reps_iff {view : View} {views : List View} : Clusterings Z view views ↔ Reps (Tidy Z 2) Z view views :=
  ⟨fun h => ⟨fun u hu => rearranged_iff.1 (h.each u hu), h.once, fun u hu => h.all u (rearranged_iff.2 hu)⟩,
    fun h => ⟨fun u hu => rearranged_iff.2 (h.each u hu), h.once, fun u hu => h.all u (rearranged_iff.1 hu)⟩⟩

theorem stage_of {view : View} {views : List View} (h : Tidy Z 2 view) (hv : IsView view)
    (hp : ∀ o ∈ viewColumns view, o ∉ Z) (hk : FullyKnown view) (hc : Clusterings Z view views) :
    Stage (Tidy Z 2) Z view views :=
  ⟨tidy_reg h, hv, hp, hk, reps_iff.1 hc, fun _ _ _ _ _ hu ht => (C39_transition_rows hu ht).1⟩

/-! ## C108 the row kernel samples from the conditional distribution, and keeps the posterior -/

/-- Every view has a list of the ways to put its rows into clusters. -/
theorem C108_clusterings {view : View} (h : Tidy Z 2 view) (hv : IsView view) :
    ∃ views, Clusterings Z view views := by
  obtain ⟨vs, hvs⟩ := reps_exist (T := Tidy Z 2) (tidy_reg h) hv
  exact ⟨vs, reps_iff.2 hvs⟩

open Classical in
/-- A Gibbs step on row `r` of a view leads to a given clustering with its conditional probability
given the clustering of the other rows: proportional to `exp` of `logpdf_score`, among the
clusterings that agree on the other rows; and never to another clustering. -/
theorem C108_conditional (hμ : IsDraw μ) {view : View} {views : List View} (h : Tidy Z 2 view) (hv : IsView view)
    (hp : ∀ o ∈ viewColumns view, o ∉ Z) (hk : FullyKnown view) (hc : Clusterings Z view views)
    {r : RowId} (hr : Mates view r r) {u w : View} (hu : Rearranged Z view u) (hw : w ∈ views) :
    probability μ (fun g => ∃ u' g', transitionRows (cgpmI 1) r (u, g) = (.ok (), (u', g')) ∧ SamePartition u' w) =
      if SameApart r u w then joint w / (views.map fun w' => if SameApart r u w' then joint w' else 0).sum else 0 := by
  have hs := stage_of h hv hp hk hc
  exact conditional_of hμ hs hr (rearranged_iff.1 hu) hw

/-- The step keeps the posterior: if the clustering has a distribution proportional to `exp` of
`logpdf_score` before the step, then also after it. -/
theorem C108_row (hμ : IsDraw μ) {view : View} {views : List View} (h : Tidy Z 2 view) (hv : IsView view)
    (hp : ∀ o ∈ viewColumns view, o ∉ Z) (hk : FullyKnown view) (hc : Clusterings Z view views)
    {r : RowId} (hr : Mates view r r) {w : View} (hw : w ∈ views) :
    (views.map fun u => joint u * probability μ fun g => ∃ u' g',
      transitionRows (cgpmI 1) r (u, g) = (.ok (), (u', g')) ∧ SamePartition u' w).sum = joint w := by
  have hs := stage_of h hv hp hk hc
  exact kernel_outcome hs.reps (row_kernel hμ hs hr) (row_keeps hs r) hw

/-- The loop over the rows of a view, in random order, keeps the posterior. -/
theorem C108_sweep (hμ : IsDraw μ) {view : View} {views : List View} (h : Tidy Z 2 view) (hv : IsView view)
    (hp : ∀ o ∈ viewColumns view, o ∉ Z) (hk : FullyKnown view) (hc : Clusterings Z view views)
    (rowids : List RowId) {w : View} (hw : w ∈ views) :
    (views.map fun u => joint u * probability μ fun g => ∃ u' g',
      Gibbs.transitionViewRows rowids (u, g) = (.ok (), (u', g')) ∧ SamePartition u' w).sum = joint w := by
  have hs := stage_of h hv hp hk hc
  obtain ⟨l, -, h2, h3⟩ := rows_visited (tidy_reg h) hv rowids
  exact kernel_outcome hs.reps (sweep_kernel hμ hs h2 h3) (sweep_keeps hμ hs fun r hr => ((h3 r).1 hr).1) hw

/-- A view the theorems talk about: rows 0 and 1 of one column, with the two ways to cluster them. -/
example : Tidy [5] 2 Concrete.together ∧ IsView Concrete.together ∧ (∀ o ∈ viewColumns Concrete.together, o ∉ [5]) ∧
    FullyKnown Concrete.together ∧ Clusterings [5] Concrete.together [Concrete.together, Concrete.apart] ∧
    Mates Concrete.together (some 0) (some 1) ∧ ¬ Mates Concrete.apart (some 0) (some 1) ∧
    SameApart (some 0) Concrete.together Concrete.apart :=
  ⟨Concrete.duo5_tidy, Concrete.duo5_view, by decide, Concrete.together_known, Concrete.two_clusterings,
    (Concrete.together_mates _ _).2 ⟨.inl rfl, .inr rfl⟩, by rw [Concrete.apart_mates]; decide, by
      refine ⟨fun a => by rw [Concrete.together_mates, Concrete.apart_mates]; simp, fun a b ha hb => ?_⟩
      rw [Concrete.together_mates, Concrete.apart_mates]
      constructor
      · rintro ⟨h1 | rfl, h2 | rfl⟩
        · exact absurd h1 ha
        · exact absurd h1 ha
        · exact absurd h2 hb
        · simp
      · rintro ⟨h, rfl⟩
        exact ⟨h, h⟩⟩

end Cgpm2.Props
