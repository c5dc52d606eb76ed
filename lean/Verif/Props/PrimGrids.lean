import Verif.Props.PrimTable

/-!
# Property C19: every hyperparameter grid point is legal (primitives)
-/

namespace Cgpm2.Props
open Spec

theorem linspace_ne_nil (a b : ℝ) {n : Nat} (hn : 1 ≤ n) : linspace a b n ≠ [] := by
  intro h
  have := congrArg List.length h
  simp [linspace] at this
  omega

theorem logLinspace_ne_nil (a b : ℝ) {n : Nat} (hn : 1 ≤ n) : logLinspace a b n ≠ [] := by
  intro h; exact linspace_ne_nil _ _ hn (List.map_eq_nil_iff.1 h)

theorem logLinspace_pos {a b x : ℝ} {n : Nat} (hx : x ∈ logLinspace a b n) : 0 < x := by
  obtain ⟨y, _, rfl⟩ := List.mem_map.1 hx
  exact Real.exp_pos y

theorem le_of_mem_linspace {a b x : ℝ} (hab : a ≤ b) {n : Nat} (hx : x ∈ linspace a b n) :
    a ≤ x := by
  obtain ⟨i, hi, rfl⟩ := List.mem_map.1 hx
  rw [List.mem_range] at hi
  have : 0 ≤ (i : ℝ) * ((b - a) / ((n : ℝ) - 1)) := by
    rcases Nat.lt_or_ge 1 n with h1 | h1
    · have : (1 : ℝ) < n := by exact_mod_cast h1
      have h2 : 0 ≤ (b - a) / ((n : ℝ) - 1) := div_nonneg (by linarith) (by linarith)
      positivity
    · have : i = 0 := by omega
      simp [this]
  linarith

theorem one_le_npRound {x : ℝ} (hx : 1 ≤ x) : 1 ≤ Poisson.npRound x := by
  have : 1 ≤ ⌊x⌋ := by rw [Int.le_floor]; exact_mod_cast hx
  unfold Poisson.npRound
  split
  · exact this
  · split
    · omega
    · split <;> omega

/-- For every class but NormalUC (which has no grid), any data set, and at least one grid point:
the grids are named after the hyperparameters, in order; each grid is non-empty; and `set_hypers`
accepts every dict that takes each hyperparameter from its grid. -/
theorem C19_grids (p : Prim) (hk : p.kind ≠ .normalUC) (X : List ℚ) {n : Nat} (hn : 1 ≤ n) :
    (p.constructHyperGrids X n).map Prod.fst = hyperNames p.kind ∧
    (∀ g ∈ p.constructHyperGrids X n, g.2 ≠ []) ∧
    ∀ h : Dict String ℝ,
      (∀ g ∈ p.constructHyperGrids X n, ∃ x ∈ g.2, Dict.get? h g.1 = some x) →
      (p.setHypers h).1 = .ok () := by
  cases p with
  | normalUC c => exact absurd rfl hk
  | crp c =>
    refine ⟨rfl, ?_, fun h hh => (C18_setHypers _ h).1.2 ?_⟩
    · simp [Prim.constructHyperGrids, Crp.constructHyperGrids, logLinspace_ne_nil _ _ hn]
    · simp only [Prim.constructHyperGrids, Crp.constructHyperGrids, List.mem_cons, List.not_mem_nil,
        or_false, forall_eq] at hh
      obtain ⟨x, hx, hg⟩ := hh
      intro m hm
      simp only [Prim.kind, hyperNames, List.mem_cons, List.not_mem_nil, or_false] at hm
      subst hm
      exact ⟨x, hg, fun _ => logLinspace_pos hx⟩
  | categorical c =>
    refine ⟨rfl, ?_, fun h hh => (C18_setHypers _ h).1.2 ?_⟩
    · simp [Prim.constructHyperGrids, Categorical.constructHyperGrids, logLinspace_ne_nil _ _ hn]
    · simp only [Prim.constructHyperGrids, Categorical.constructHyperGrids, List.mem_cons,
        List.not_mem_nil, or_false, forall_eq] at hh
      obtain ⟨x, hx, hg⟩ := hh
      intro m hm
      simp only [Prim.kind, hyperNames, List.mem_cons, List.not_mem_nil, or_false] at hm
      subst hm
      exact ⟨x, hg, fun _ => logLinspace_pos hx⟩
  | bernoulli c =>
    refine ⟨rfl, ?_, fun h hh => (C18_setHypers _ h).1.2 ?_⟩
    · simp [Prim.constructHyperGrids, Bernoulli.constructHyperGrids, logLinspace_ne_nil _ _ hn]
    · simp only [Prim.constructHyperGrids, Bernoulli.constructHyperGrids, List.mem_cons,
        List.not_mem_nil, or_false, forall_eq_or_imp, forall_eq] at hh
      obtain ⟨⟨x, hx, hg⟩, y, hy, hg'⟩ := hh
      intro m hm
      simp only [Prim.kind, hyperNames, List.mem_cons, List.not_mem_nil, or_false] at hm
      rcases hm with rfl | rfl
      · exact ⟨x, hg, fun _ => logLinspace_pos hx⟩
      · exact ⟨y, hg', fun _ => logLinspace_pos hy⟩
  | normal c =>
    refine ⟨rfl, ?_, fun h hh => (C18_setHypers _ h).1.2 ?_⟩
    · simp [Prim.constructHyperGrids, Normal.constructHyperGrids, logLinspace_ne_nil _ _ hn,
        linspace_ne_nil _ _ hn]
    · simp only [Prim.constructHyperGrids, Normal.constructHyperGrids, List.mem_cons,
        List.not_mem_nil, or_false, forall_eq_or_imp, forall_eq] at hh
      obtain ⟨⟨m, _, hm⟩, ⟨r, hr, hgr⟩, ⟨s, hs, hgs⟩, nu, hnu, hgn⟩ := hh
      intro k hk
      simp only [Prim.kind, hyperNames, List.mem_cons, List.not_mem_nil, or_false] at hk
      rcases hk with rfl | rfl | rfl | rfl
      · exact ⟨m, hm, fun h => absurd rfl h⟩
      · exact ⟨r, hgr, fun _ => logLinspace_pos hr⟩
      · exact ⟨s, hgs, fun _ => logLinspace_pos hs⟩
      · exact ⟨nu, hgn, fun _ => logLinspace_pos hnu⟩
  | poisson c =>
    refine ⟨rfl, ?_, fun h hh => (C18_setHypers _ h).1.2 ?_⟩
    · simp only [Prim.constructHyperGrids, Poisson.constructHyperGrids, List.mem_cons,
        List.not_mem_nil, or_false, forall_eq_or_imp, forall_eq]
      refine ⟨?_, logLinspace_ne_nil _ _ hn⟩
      intro h0
      have h1 := List.map_eq_nil_iff.1 h0
      unfold Poisson.npUnique pySorted at h1
      have h2 := congrArg List.length h1
      rw [List.length_insertionSort, List.length_nil, List.length_eq_zero_iff,
        List.dedup_eq_nil, List.map_eq_nil_iff] at h2
      exact linspace_ne_nil _ _ hn h2
    · simp only [Prim.constructHyperGrids, Poisson.constructHyperGrids, List.mem_cons,
        List.not_mem_nil, or_false, forall_eq_or_imp, forall_eq] at hh
      obtain ⟨⟨x, hx, hg⟩, y, hy, hg'⟩ := hh
      intro m hm
      simp only [Prim.kind, hyperNames, List.mem_cons, List.not_mem_nil, or_false] at hm
      rcases hm with rfl | rfl
      · refine ⟨x, hg, fun _ => ?_⟩
        obtain ⟨i, hi, rfl⟩ := List.mem_map.1 hx
        unfold Poisson.npUnique pySorted at hi
        rw [List.mem_insertionSort, List.mem_dedup] at hi
        obtain ⟨z, hz, rfl⟩ := List.mem_map.1 hi
        have h1 : (1 : ℝ) ≤ if X.length > 0 then (X.length : ℝ) else 2 := by
          split
          · rename_i h; exact_mod_cast h
          · norm_num
        have := one_le_npRound (le_of_mem_linspace h1 hz)
        have : (1 : ℝ) ≤ (Poisson.npRound z : ℝ) := by exact_mod_cast this
        linarith
      · exact ⟨y, hg', fun _ => logLinspace_pos hy⟩

example : (Prim.poisson Concrete.poi0).kind ≠ .normalUC ∧
    (Prim.poisson Concrete.poi0).kind = .poisson := ⟨nofun, rfl⟩

end Cgpm2.Props
