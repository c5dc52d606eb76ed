import Verif.Lemmas.HyperErgodic
import Verif.Props.Hypers

/-!
# C110: hyperparameter transitions keep, and approach, the posterior over the grid
-/

namespace Cgpm2.Props
open Spec MeasureTheory

variable {μ : Measure Draw} [IsProbabilityMeasure μ] {k : Prim.Kind} {grids : Dict String (List ℝ)} {ps : List Prim}
  {cells : List (Dict String ℝ)}

theorem choices_iff (hc : Choices grids cells) (c : Dict String ℝ) : c ∈ cells ↔ c ∈ cellsOf grids := by
  rw [hc, mem_cells]
  constructor <;> intro h <;> exact h.imp fun a b hab => ⟨hab.1.symm, hab.2⟩

theorem choice_full (hnames : Dict.keys grids = hyperNames k) (hg : ∀ n ∈ hyperNames k, LegalGrid grids n)
    {c : Dict String ℝ} (hc : c ∈ cellsOf grids) : FullHypers k c := by
  refine ⟨fun n hn => ?_, (cells_keys hc).trans hnames⟩
  obtain ⟨grid, hgn, -, hl⟩ := hg n hn
  obtain ⟨v, hv, h⟩ := cells_get hgn hc
  exact ⟨v, h, hl v hv⟩

theorem given_iff (hp : ∀ p ∈ ps, p.kind = k) {c : Dict String ℝ} (hc : HypersOk k c) (qs : List Prim) :
    Given ps c qs ↔ qs = ps.map (Prim.withHypers c) := by
  unfold Given
  constructor
  · intro h
    induction h with
    | nil => rfl
    | cons hab _ ih =>
      rw [List.map_cons, ih fun p h => hp p (List.mem_cons_of_mem _ h)]
      rw [Prim.setHypers_ok (by rw [hp _ List.mem_cons_self]; exact hc)] at hab
      cases hab
      rfl
  · rintro rfl
    induction ps with
    | nil => exact .nil
    | cons p ps ih =>
      exact .cons (Prim.setHypers_ok (by rw [hp p List.mem_cons_self]; exact hc)) (ih fun p h => hp p (List.mem_cons_of_mem _ h))

/-- C110: over the hyperparameters that take one point from each grid, `transition_hypers` keeps
the distribution with weights `exp` of the joint score (a point that a grid lists several times
counts as often): if the hyperparameters of the objects have it before, then also after. -/
theorem C110_keeps (hμ : IsDraw μ) (hk : k ≠ .normalUC) (hne : ps ≠ []) (hp : ∀ p ∈ ps, LegallyReachable p ∧ p.kind = k)
    (hnames : Dict.keys grids = hyperNames k) (hg : ∀ n ∈ hyperNames k, LegalGrid grids n) (hnd : cells.Nodup)
    (hc : Choices grids cells) :
    ∃ W : Dict String ℝ → ℝ, (∀ c ∈ cells, JointScore ps c (W c)) ∧ ∀ w ∈ cells,
      (cells.map fun c => gridWeight grids W c * probability μ fun g => ∃ qs qs' g', Given ps c qs ∧ Given ps w qs' ∧
        transitionHypers grids (qs, g) = (.ok w, (qs', g'))).sum = gridWeight grids W w := by
  classical
  have hall := allOf_of_reachable hp
  have hm := choices_iff hc
  have hfull : ∀ c ∈ cells, FullHypers k c := fun c h => choice_full hnames hg ((hm c).1 h)
  have hgiven := fun c h => given_iff (fun p hp' => (hp p hp').2) (hfull c h).1
  refine ⟨total ps, fun c h => total_jointScore (hfull c h).1 hall, fun w hw => ?_⟩
  have hkeep := keeps_cells hnd hm (by have := hypers_keeps ps grids (Dict.keys grids); rwa [hyperCells_eq] at this)
    (ind Eq w) (classFn_eq _)
  rw [(classes_eq hnd).sum_single hw] at hkeep
  refine Eq.trans (congrArg List.sum (List.map_congr_left fun c h => ?_)) hkeep
  refine congrArg₂ (· * ·) rfl ?_
  have := (hypers_kernel (μ := μ) hμ hk hne hall hnames hg (hfull c h) (Φ := fun h' _ => {_g | h' = w}) (F := ind Eq w)
    fun h' _ => by by_cases e : h' = w <;> simp [e, ind]).2
  rw [← this]
  refine congrArg (Pr μ) (Set.ext fun g => ?_)
  constructor
  · rintro ⟨qs, qs', g', h1, -, h3⟩
    rw [hgiven c h] at h1
    subst h1
    exact ⟨w, qs', g', h3, rfl⟩
  · rintro ⟨h', ps', g', h1, h2⟩
    have h2 : h' = w := h2
    subst h2
    have hp' : Given ps h' ps' := by
      have e := hypers_objects hk hall hg hne h1
      rw [hgiven h' hw]
      exact e
    exact ⟨_, ps', g', (hgiven c h _).2 rfl, hp', h1⟩

/-- C110: repeated, it approaches that distribution, from every point of the grids, at a geometric
rate. -/
theorem C110_rate (hμ : IsDraw μ) (hk : k ≠ .normalUC) (hne : ps ≠ []) (hp : ∀ p ∈ ps, LegallyReachable p ∧ p.kind = k)
    (hnames : Dict.keys grids = hyperNames k) (hg : ∀ n ∈ hyperNames k, LegalGrid grids n) (hnd : cells.Nodup)
    (hc : Choices grids cells) :
    ∃ (W : Dict String ℝ → ℝ) (ρ : ℝ), (∀ c ∈ cells, JointScore ps c (W c)) ∧ 0 ≤ ρ ∧ ρ < 1 ∧
      ∀ n, ∀ c ∈ cells, ∀ w ∈ cells, ∀ qs, Given ps c qs →
        |(probability μ fun g => ∃ qs' g', Given ps w qs' ∧
            repeatCall (do let _ ← transitionHypers grids; pure ()) n (qs, g) = (.ok (), (qs', g'))).toReal -
          (gridWeight grids W w / (cells.map (gridWeight grids W)).sum).toReal| ≤ ρ ^ n := by
  classical
  have hall := allOf_of_reachable hp
  have hm := choices_iff hc
  have hfull : ∀ c ∈ cells, FullHypers k c := fun c h => choice_full hnames hg ((hm c).1 h)
  have hgiven := fun c h => given_iff (fun p hp' => (hp p hp').2) (hfull c h).1
  obtain ⟨ρ, h0, h1, hρ⟩ := hypers_converge hnd hm (by rw [hnames]; exact hyperNames_nodup k) ps
  refine ⟨total ps, ρ, fun c h => total_jointScore (hfull c h).1 hall, h0, h1, fun n c h w hw qs hqs => ?_⟩
  rw [hgiven c h] at hqs
  subst hqs
  have := (repeat_law (μ := μ) hμ hk hne hall hnames hg (Φ := fun ps' => {_g | ps' = ps.map (Prim.withHypers w)}) (F := ind Eq w)
    (fun h' hh => by
      have e : ps.map (Prim.withHypers h') = ps.map (Prim.withHypers w) ↔ h' = w := by
        refine ⟨fun e => ?_, fun e => by rw [e]⟩
        obtain ⟨p, ps1, rfl⟩ := List.exists_cons_of_ne_nil hne
        have hpk := (hp p List.mem_cons_self).2
        have := congrArg Prim.getHypers (List.cons.inj e).1
        rwa [withHypers_get (by rw [hpk]; exact hk) (by rw [hpk]; exact hh.1) (by rw [hpk]; exact hh.2),
          withHypers_get (by rw [hpk]; exact hk) (by rw [hpk]; exact (hfull w hw).1) (by rw [hpk]; exact (hfull w hw).2)] at this
      simp only [e]
      by_cases e : h' = w <;> simp [e, ind]) n (hfull c h)).2
  have e : probability μ (fun g => ∃ qs' g', Given ps w qs' ∧
      repeatCall (do let _ ← transitionHypers grids; pure ()) n (ps.map (Prim.withHypers c), g) = (.ok (), (qs', g'))) =
      iterate (hypersKernel ps grids (Dict.keys grids)) n c (ind Eq w) := by
    rw [← this]
    refine congrArg (Pr μ) (Set.ext fun g => ?_)
    constructor
    · rintro ⟨qs', g', h1, h2⟩
      exact ⟨(), qs', g', h2, (hgiven w hw _).1 h1⟩
    · rintro ⟨_, qs', g', h1, h2⟩
      exact ⟨qs', g', (hgiven w hw _).2 h2, h1⟩
  rw [e]
  exact hρ n c w h hw

/-- Two Bernoulli objects, one with rows; the grid of `beta` lists 3 twice, so a point with it
counts twice. -/
example : (∀ p ∈ berPair, LegallyReachable p ∧ p.kind = .bernoulli) ∧ berPair ≠ [] ∧
    (∀ n ∈ hyperNames .bernoulli, LegalGrid [("alpha", [1 / 2, 2]), ("beta", [1, 3, 3])] n) ∧
    ([[("alpha", 1 / 2), ("beta", 1)], [("alpha", 1 / 2), ("beta", 3)], [("alpha", 2), ("beta", 1)],
      [("alpha", 2), ("beta", 3)]] : List (Dict String ℝ)).Nodup ∧
    Choices [("alpha", [1 / 2, 2]), ("beta", [1, 3, 3])] [[("alpha", 1 / 2), ("beta", 1)],
      [("alpha", 1 / 2), ("beta", 3)], [("alpha", 2), ("beta", 1)], [("alpha", 2), ("beta", 3)]] ∧
    gridCount [("alpha", [1 / 2, 2]), ("beta", [1, 3, 3])] [("alpha", 2), ("beta", 3)] = 2 := by
  refine ⟨berPair_reachable, by simp [berPair], berPair_grids, by norm_num, fun c => ?_, by norm_num [gridCount]⟩
  have := (mem_cells (C := String) (grids := [("alpha", [1 / 2, 2]), ("beta", [1, 3, 3])]) (c := c))
  constructor
  · intro h
    simp only [List.mem_cons, List.not_mem_nil, or_false] at h
    rcases h with rfl | rfl | rfl | rfl <;>
      exact .cons ⟨rfl, by simp⟩ (.cons ⟨rfl, by simp⟩ .nil)
  · intro h
    have := this.2 (h.imp fun a b hab => ⟨hab.1.symm, hab.2⟩)
    simp only [cellsOf, List.flatMap_cons, List.flatMap_nil, List.map_cons, List.map_nil, List.append_nil,
      List.cons_append, List.nil_append, List.mem_cons, List.not_mem_nil, or_false] at this
    simp only [List.mem_cons, List.not_mem_nil, or_false]
    tauto

end Cgpm2.Props
