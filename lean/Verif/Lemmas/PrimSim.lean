import Verif.Lemmas.PrimScore
import Verif.Lemmas.Flip

/-!
# `simulate` of the primitives (helpers)
-/

set_option linter.unusedSimpArgs false

namespace Cgpm2
open Spec

theorem simulateMany_none (one : Py Rng (Dict Var Val)) (rng : Rng) :
    simulateMany one none rng = match one rng with
      | (.ok s, rng') => (.ok (.one s), rng')
      | (.error e, rng') => (.error e, rng') := by
  simp only [simulateMany, Py.bind_apply]
  split <;> simp_all

theorem simulateGuard_ok (o : Var) : simulateGuard [o] [o] [] [] = .ok () := by
  simp [simulateGuard]

theorem idxOf_map_inj {α β : Type} [DecidableEq α] [DecidableEq β] {f : α → β}
    (hf : Function.Injective f) (l : List α) (a : α) : (l.map f).idxOf (f a) = l.idxOf a := by
  induction l with
  | nil => rfl
  | cons b l ih =>
    rw [List.map_cons, List.idxOf_cons, List.idxOf_cons, ih]
    by_cases h : b = a
    · subst h; simp only [beq_self_eq_true, cond_true]
    · have h' : f b ≠ f a := fun h' => h (hf h')
      rw [beq_false_of_ne h, beq_false_of_ne h']

/-- Drawing an entry of `xs` with weights `ps`. -/
theorem chance_choice (xs : List ℚ) (hn : xs.Nodup) (ps : List ℝ) (hlen : ps.length = xs.length)
    (hp : ∀ p ∈ ps, 0 ≤ p) (hs : 0 < ps.sum) (rng : Rng) (x : ℚ) :
    chance (fun u => ∃ i, (pflipIdx ps (withUniform u rng)).1 = .ok i ∧ xs.getD i 0 = x)
      = ENNReal.ofReal (if x ∈ xs then ps.getD (xs.idxOf x) 0 / ps.sum else 0) := by
  have hne : ps ≠ [] := by rintro rfl; simp at hs
  have hdraw : ∀ u, ∃ i, (pflipIdx ps (withUniform u rng)).1 = .ok i ∧ i < xs.length := by
    intro u
    obtain ⟨i, rng', h1, h2, _⟩ := pflipIdx_ok ps hne hp hs (withUniform u rng)
    exact ⟨i, by rw [h1], by omega⟩
  by_cases hx : x ∈ xs
  · rw [if_pos hx]
    have hi : xs.idxOf x < xs.length := List.idxOf_lt_length_of_mem hx
    rw [← chance_pflipIdx ps hp hs rng (xs.idxOf x) (by omega)]
    apply chance_congr
    intro u _
    obtain ⟨i, h1, h2⟩ := hdraw u
    constructor
    · rintro ⟨j, h3, h4⟩
      rw [h1] at h3; cases h3
      rw [List.getD_eq_getElem?_getD, List.getElem?_eq_getElem h2] at h4
      simp only [Option.getD_some] at h4
      rw [h1, ← h4, hn.idxOf_getElem]
    · intro h
      refine ⟨_, h, ?_⟩
      rw [List.getD_eq_getElem?_getD, List.getElem?_eq_getElem hi]
      simp
  · rw [if_neg hx, ENNReal.ofReal_zero, ← chance_false]
    apply chance_congr
    intro u _
    obtain ⟨i, h1, h2⟩ := hdraw u
    simp only [iff_false]
    rintro ⟨j, h3, h4⟩
    rw [h1] at h3; cases h3
    apply hx
    rw [List.getD_eq_getElem?_getD, List.getElem?_eq_getElem h2] at h4
    rw [← h4]; simp

namespace Crp

/-- The log weights of the support. -/
noncomputable def logWeights (c : Crp) : List Fl :=
  c.support.map fun t => .fin (Real.log (c.weight t) - Real.log ((c.N : ℝ) + c.alpha))

theorem simulate1_unheld {c : Crp} (hI : c.Inv) (ha : 0 < c.alpha) {o : Var} (ho : c.outputs = [o])
    {r : RowId} (hr : r ∉ Dict.keys c.data) (rng : Rng) :
    c.simulate1 r [o] [] [] rng = match logPflipIdx c.logWeights rng with
      | (.ok i, rng') => (.ok [(o, .num ((c.support.getD i 0 : Int) : ℚ))], rng')
      | (.error e, rng') => (.error e, rng') := by
  have hn : Dict.get? c.data r = none := (Dict.get?_eq_none_iff _ _).2 hr
  have hm : (c.support.mapM fun t : Int => c.logpdf r [(o, .num (t : ℚ))] [] [])
      = .ok c.logWeights := by
    apply mapM_ok
    intro t ht
    rw [logpdf_unheld hI ha ho hr, truncate_intCast, if_pos ht]
  unfold simulate1
  simp only [Py.bind_apply, Py.lift_apply, ho, simulateGuard_ok, firstOutput_single, hn, hm,
    Py.pure_apply]
  rcases logPflipIdx c.logWeights rng with ⟨_ | _, _⟩ <;> rfl

theorem simulate1_held {c : Crp} {o : Var} (ho : c.outputs = [o])
    {r : RowId} {x : Int} (hr : Dict.get? c.data r = some x) (rng : Rng) :
    c.simulate1 r [o] [] [] rng = (.ok [(o, .num (x : ℚ))], rng) := by
  unfold simulate1
  simp only [Py.bind_apply, Py.lift_apply, ho, simulateGuard_ok, firstOutput_single, hr,
    Py.pure_apply]

theorem logWeights_isLogP (c : Crp) : ∀ x ∈ c.logWeights, x.IsLogP := by
  intro x hx
  obtain ⟨t, _, rfl⟩ := List.mem_map.1 hx
  trivial

theorem logWeights_exp {c : Crp} (hI : c.Inv) (ha : 0 < c.alpha) :
    c.logWeights.map Fl.exp = c.support.map fun t => c.weight t / ((c.N : ℝ) + c.alpha) := by
  have hN := N_nonneg hI
  have hd : (0 : ℝ) < (c.N : ℝ) + c.alpha := by linarith
  unfold logWeights
  rw [List.map_map]
  apply List.map_congr_left
  intro t _
  simp [Fl.exp, exp_log_sub (weight_pos ha t) hd]

theorem logWeights_sum {c : Crp} (hI : c.Inv) (ha : 0 < c.alpha) :
    (c.logWeights.map Fl.exp).sum = 1 := by
  have hN := N_nonneg hI
  have hd : (0 : ℝ) < (c.N : ℝ) + c.alpha := by linarith
  rw [logWeights_exp hI ha, sum_map_div, sum_weight hI, div_self hd.ne']

theorem support_ne_nil {c : Crp} (hI : c.Inv) : c.support ≠ [] := by
  obtain ⟨f, h1, _⟩ := support_spec hI
  rw [h1]; simp

theorem simulate1_ok {c : Crp} (hI : c.Inv) (ha : 0 < c.alpha) {o : Var} (ho : c.outputs = [o])
    {r : RowId} (hr : r ∉ Dict.keys c.data) (rng : Rng) :
    ∃ (t : Int) (rng' : Rng), c.simulate1 r [o] [] [] rng = (.ok [(o, .num (t : ℚ))], rng') ∧ t ∈ c.support := by
  have hne : c.logWeights ≠ [] := by
    simpa [logWeights] using support_ne_nil hI
  obtain ⟨i, rng', h1, h2, _⟩ := logPflipIdx_ok c.logWeights hne (logWeights_isLogP c)
    (by rw [logWeights_sum hI ha]; norm_num) rng
  rw [simulate1_unheld hI ha ho hr, h1]
  refine ⟨_, _, rfl, ?_⟩
  have hi : i < c.support.length := by simpa [logWeights] using h2
  rw [List.getD_eq_getElem?_getD, List.getElem?_eq_getElem hi]
  exact List.getElem_mem hi

end Crp

namespace Categorical

theorem simulateWeights_eq {c : Categorical} (hI : c.Inv) :
    c.simulateWeights = (List.range c.k).map fun i => (c.alpha + (c.cnt i : ℝ)) := by
  unfold simulateWeights
  conv_lhs => rw [counts_eq hI]
  rw [List.map_map]
  apply List.map_congr_left
  intro i _
  simp [cnt, add_comm]

theorem simulate1_free {c : Categorical} {o : Var} (ho : c.outputs = [o])
    {r : RowId} (hr : ∀ q, Dict.get? c.data r ≠ some (.num q)) (rng : Rng) :
    c.simulate1 r [o] [] [] rng = match pflipIdx c.simulateWeights rng with
      | (.ok i, rng') => (.ok [(o, .num ((i : Nat) : ℚ))], rng')
      | (.error e, rng') => (.error e, rng') := by
  have : (Dict.get? c.data r = none) ∨ Dict.get? c.data r = some .nan := by
    rcases h : Dict.get? c.data r with _ | (_ | q)
    · exact Or.inl rfl
    · exact Or.inr rfl
    · exact absurd h (hr q)
  rcases this with h | h <;>
  · unfold simulate1
    simp only [Py.bind_apply, Py.lift_apply, ho, simulateGuard_ok, firstOutput_single,
      Py.pure_apply, h]
    rcases pflipIdx c.simulateWeights rng with ⟨_ | _, _⟩ <;> rfl

theorem simulate1_held {c : Categorical} {o : Var} (ho : c.outputs = [o])
    {r : RowId} {q : ℚ} (hr : Dict.get? c.data r = some (.num q)) (rng : Rng) :
    c.simulate1 r [o] [] [] rng = (.ok [(o, .num q)], rng) := by
  unfold simulate1
  simp only [Py.bind_apply, Py.lift_apply, ho, simulateGuard_ok, firstOutput_single, hr,
    Py.pure_apply]

theorem simulateWeights_nonneg {c : Categorical} (hI : c.Inv) (hL : LegalHypers (.categorical c)) :
    ∀ p ∈ c.simulateWeights, 0 ≤ p := by
  rw [simulateWeights_eq hI]
  intro p hp
  obtain ⟨i, _, rfl⟩ := List.mem_map.1 hp
  have : (0 : ℝ) ≤ c.cnt i := by simp
  have := hL.1
  linarith

theorem simulateWeights_sum {c : Categorical} (hI : c.Inv) :
    c.simulateWeights.sum = (c.N : ℝ) + c.alpha * c.k := by
  rw [simulateWeights_eq hI, sum_alpha_cnt hI]

theorem denom_pos {c : Categorical} (hI : c.Inv) (hL : LegalHypers (.categorical c)) :
    (0 : ℝ) < (c.N : ℝ) + c.alpha * c.k := by
  have hk : (1 : ℝ) ≤ c.k := by exact_mod_cast hL.2
  have := N_nonneg hI
  have := mul_pos hL.1 (lt_of_lt_of_le one_pos hk)
  linarith

theorem simulate1_ok {c : Categorical} (hI : c.Inv) (hL : LegalHypers (.categorical c)) {o : Var}
    (ho : c.outputs = [o]) {r : RowId} (hr : ∀ q, Dict.get? c.data r ≠ some (.num q)) (rng : Rng) :
    ∃ i rng', c.simulate1 r [o] [] [] rng = (.ok [(o, .num ((i : Nat) : ℚ))], rng') ∧ i < c.k := by
  have hl : c.simulateWeights.length = c.k := by rw [simulateWeights_eq hI]; simp
  have hne : c.simulateWeights ≠ [] := by
    intro h; rw [h] at hl; have := hL.2; simp at hl; omega
  obtain ⟨i, rng', h1, h2, _⟩ := pflipIdx_ok c.simulateWeights hne (simulateWeights_nonneg hI hL)
    (by rw [simulateWeights_sum hI]; exact denom_pos hI hL) rng
  rw [simulate1_free ho hr, h1]
  exact ⟨i, rng', rfl, by omega⟩

end Categorical

namespace Bernoulli

/-- The log weights of 0 and 1. -/
noncomputable def logWeights (c : Bernoulli) : List Fl :=
  [.fin (Real.log (c.weight false) - Real.log (c.weight false + c.weight true)),
   .fin (Real.log (c.weight true) - Real.log (c.weight false + c.weight true))]

theorem simulate1_free {c : Bernoulli} (hI : c.Inv) (hL : LegalHypers (.bernoulli c)) {o : Var}
    (ho : c.outputs = [o]) {r : RowId} (hr : ∀ q, Dict.get? c.data r ≠ some (.num q)) (rng : Rng) :
    c.simulate1 r [o] [] [] rng = match logPflipIdx c.logWeights rng with
      | (.ok i, rng') => (.ok [(o, .num ((i : Nat) : ℚ))], rng')
      | (.error e, rng') => (.error e, rng') := by
  unfold simulate1
  simp only [Py.bind_apply, Py.lift_apply, ho, simulateGuard_ok, firstOutput_single,
    Py.pure_apply]
  have : (Dict.get? c.data r = none) ∨ Dict.get? c.data r = some .nan := by
    rcases h : Dict.get? c.data r with _ | (_ | q)
    · exact Or.inl rfl
    · exact Or.inr rfl
    · exact absurd h (hr q)
  rcases this with h | h <;>
  · simp only [h, Py.bind_apply, Py.lift_apply, calcPredictiveLogp_eq hI hL]
    rw [← logWeights]
    split <;> simp_all

theorem simulate1_held {c : Bernoulli} {o : Var} (ho : c.outputs = [o])
    {r : RowId} {q : ℚ} (hr : Dict.get? c.data r = some (.num q)) (rng : Rng) :
    c.simulate1 r [o] [] [] rng = (.ok [(o, .num q)], rng) := by
  unfold simulate1
  simp only [Py.bind_apply, Py.lift_apply, ho, simulateGuard_ok, firstOutput_single, hr,
    Py.pure_apply]

theorem logWeights_isLogP (c : Bernoulli) : ∀ x ∈ c.logWeights, x.IsLogP := by
  intro x hx
  simp only [logWeights, List.mem_cons, List.not_mem_nil, or_false] at hx
  rcases hx with rfl | rfl <;> trivial

theorem logWeights_exp {c : Bernoulli} (hL : LegalHypers (.bernoulli c)) :
    c.logWeights.map Fl.exp = [c.weight false / (c.weight false + c.weight true),
      c.weight true / (c.weight false + c.weight true)] := by
  have hw := weight_pos hL
  simp [logWeights, Fl.exp, Crp.exp_log_sub (hw _) (add_pos (hw false) (hw true))]

theorem logWeights_sum {c : Bernoulli} (hL : LegalHypers (.bernoulli c)) :
    (c.logWeights.map Fl.exp).sum = 1 := by
  have hw := weight_pos hL
  have := (add_pos (hw false) (hw true)).ne'
  rw [logWeights_exp hL]
  simp [← add_div, this]

end Bernoulli

end Cgpm2
