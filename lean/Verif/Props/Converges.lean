import Verif.Props.Stationary
import Verif.Lemmas.RowReach

/-!
# C109: repeated sweeps approach the posterior of the clustering
-/

namespace Cgpm2.Props
open Spec Views Cpp MeasureTheory

variable {Z : List Var} {μ : Measure Draw} [IsProbabilityMeasure μ]

theorem iterate_kernel {S : Type} {G : S → Prop} {R : S → S → Prop} {m : Py (S × Rng) Unit} {K : S → (S → ENNReal) → ENNReal}
    (h : Kernel μ G R m K) (n : Nat) : Kernel μ G R (repeatCall m n) (iterate K n) := by
  induction n with
  | zero => exact Kernel.pure ()
  | succ n ih => exact Kernel.bind (K := K) h (fun _ => rfl) ih

/-- After `n` sweeps over the rows of a view, from any clustering, the probability of each
clustering is its share of the posterior up to `ρ ^ n`, with a `ρ < 1` that does not depend on `n`
or on where the sweeps start. -/
theorem C109_rate (hμ : IsDraw μ) {view : View} {views : List View} (h : Tidy Z 2 view) (hv : IsView view)
    (hp : ∀ o ∈ viewColumns view, o ∉ Z) (hk : FullyKnown view) (hc : Clusterings Z view views) :
    ∃ ρ : ℝ, 0 ≤ ρ ∧ ρ < 1 ∧ ∀ n u w, Rearranged Z view u → w ∈ views →
      |(probability μ fun g => ∃ u' g', repeatCall (Gibbs.transitionViewRows []) n (u, g) = (.ok (), (u', g')) ∧
          SamePartition u' w).toReal - (joint w / (views.map joint).sum).toReal| ≤ ρ ^ n := by
  have hs := stage_of h hv hp hk hc
  obtain ⟨l, -, h2, h3⟩ := rows_visited (tidy_reg h) hv []
  have h3' : ∀ r, r ∈ l ↔ Mates view r r := fun r => (h3 r).trans ⟨fun h => h.1, fun h => ⟨h, .inl rfl⟩⟩
  have hl := fun r hr => (h3' r).1 hr
  have hcl := hs.reps.classes
  have hker := sweep_kernel hμ hs h2 h3
  obtain ⟨ρ, h0, h1, hρ⟩ := converges hcl (sweep_linear hμ hs hl).1 hker.cls (sweep_linear hμ hs hl).2
    (sweep_keeps hμ hs hl) (fun s hs' => (joint_ne (hcl.each s hs')).1) (fun s hs' => (joint_ne (hcl.each s hs')).2)
    fun u hu w hw => sweep_reach hμ hs hw h2 h3' (hcl.each u hu)
  refine ⟨ρ, h0, h1, fun n u w hu hw => ?_⟩
  have := (iterate_kernel hker n).chance hcl (rearranged_iff.1 hu) w
  have e : probability μ (fun g => ∃ u' g', repeatCall (Gibbs.transitionViewRows []) n (u, g) = (.ok (), (u', g')) ∧
      SamePartition u' w) = iterate (sweepKernel views l) n u (ind SamePartition w) := by
    rw [← this]
    exact congrArg (Pr μ) (Set.ext fun g => ⟨fun ⟨u', g', h⟩ => ⟨(), u', g', h⟩, fun ⟨_, u', g', h⟩ => ⟨u', g', h⟩⟩)
  rw [e]
  exact hρ n u w (rearranged_iff.1 hu) hw

/-- The probability of each clustering tends to its share of the posterior. -/
theorem C109_limit (hμ : IsDraw μ) {view : View} {views : List View} (h : Tidy Z 2 view) (hv : IsView view)
    (hp : ∀ o ∈ viewColumns view, o ∉ Z) (hk : FullyKnown view) (hc : Clusterings Z view views)
    {u w : View} (hu : Rearranged Z view u) (hw : w ∈ views) :
    Filter.Tendsto (fun n => (probability μ fun g => ∃ u' g',
        repeatCall (Gibbs.transitionViewRows []) n (u, g) = (.ok (), (u', g')) ∧ SamePartition u' w).toReal)
      Filter.atTop (nhds (joint w / (views.map joint).sum).toReal) := by
  obtain ⟨ρ, h0, h1, hρ⟩ := C109_rate hμ h hv hp hk hc
  rw [tendsto_iff_dist_tendsto_zero]
  exact squeeze_zero (fun _ => dist_nonneg) (fun n => hρ n u w hu hw) (tendsto_pow_atTop_nhds_zero_of_lt_one h0 h1)

/-- Two rows of one column: from together to apart, and back. -/
example {w : View} (hμ : IsDraw μ) (hw : w ∈ [Concrete.together, Concrete.apart]) :
    Filter.Tendsto (fun n => (probability μ fun g => ∃ u' g',
        repeatCall (Gibbs.transitionViewRows []) n (Concrete.together, g) = (.ok (), (u', g')) ∧ SamePartition u' w).toReal)
      Filter.atTop (nhds (joint w / ([Concrete.together, Concrete.apart].map joint).sum).toReal) :=
  C109_limit hμ Concrete.duo5_tidy Concrete.duo5_view (by decide) Concrete.together_known Concrete.two_clusterings
    (Concrete.two_clusterings.each _ List.mem_cons_self) hw

end Cgpm2.Props
