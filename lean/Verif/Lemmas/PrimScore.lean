import Verif.Lemmas.PrimNum

/-!
# Predictive log-probability and score of a primitive, uniformly over the classes (helpers)
-/

set_option linter.unusedSimpArgs false

namespace Cgpm2
open Spec

namespace Prim

open Classical in
/-- Predictive log-probability of a number for a row that is not held. -/
noncomputable def pred (p : Prim) (q : ℚ) : Fl :=
  match p with
  | crp c => if truncate q ∈ c.support then
      .fin (Real.log (c.weight (truncate q)) - Real.log ((c.N : ℝ) + c.alpha)) else .ninf
  | categorical c => if ∃ i : Nat, i < c.k ∧ q = i then
      .fin (Real.log (c.alpha + ((present (valuesOf c.data)).count q : ℕ))
        - Real.log ((c.N : ℝ) + c.alpha * c.k)) else .ninf
  | bernoulli c => if q = 0 ∨ q = 1 then
      .fin (Real.log (c.weight (decide (q = 1))) - Real.log (c.weight false + c.weight true))
      else .ninf
  | normal c => .fin (-(1/2) * Normal.log2pi + Normal.logZPost c.m c.r c.s c.nu (c.xs ++ [(q : ℝ)])
        - Normal.logZPost c.m c.r c.s c.nu c.xs)
  | normalUC c => .fin (NormalUC.lp c.mu c.var q)
  | poisson c => if ∃ i : Nat, q = i then .fin (c.lp q) else .ninf

/-- The score. -/
noncomputable def score : Prim → ℝ
  | crp c => c.score
  | categorical c => c.score
  | bernoulli c => c.score
  | normal c => c.score
  | normalUC c => c.score
  | poisson c => c.score

theorem logpdf_num {p : Prim} (hI : p.Inv) (hL : LegalHypers p) {o : Var} (ho : p.outputs = [o])
    {r : RowId} (hr : r ∉ Dict.keys p.data) (q : ℚ) :
    p.logpdf r [(o, .num q)] [] [] = .ok (p.pred q) := by
  cases p with
  | crp c =>
    rw [data, keys_map_data] at hr
    exact Crp.logpdf_unheld hI hL ho hr q
  | categorical c =>
    by_cases h : ∃ i : Nat, i < c.k ∧ q = i
    · simp only [pred, if_pos h]
      obtain ⟨i, hi, rfl⟩ := h
      exact Categorical.logpdf_num hI hL ho hr hi
    · simp only [pred, if_neg h]
      exact Categorical.logpdf_illegal ho hr h
  | bernoulli c =>
    by_cases h : q = 0 ∨ q = 1
    · simp only [pred, if_pos h]
      exact Bernoulli.logpdf_num hI hL ho hr h
    · simp only [pred, if_neg h]
      exact Bernoulli.logpdf_illegal ho hr h
  | normal c => exact Normal.logpdf_num hI ho hr q
  | normalUC c =>
    have := NormalUC.logpdf_num ho hr q
    rw [NormalUC.normLogpdf_eq hL] at this
    exact this
  | poisson c =>
    by_cases h : ∃ i : Nat, q = i
    · simp only [pred, if_pos h]
      obtain ⟨i, rfl⟩ := h
      have := Poisson.logpdf_num hI ho hr i
      rw [Rat.cast_natCast]; exact this
    · simp only [pred, if_neg h]
      exact Poisson.logpdf_illegal ho hr h

theorem logpdfScore_eq {p : Prim} (hI : p.Inv) (hL : LegalHypers p) :
    p.logpdfScore = .ok (.fin p.score) := by
  cases p with
  | crp c => exact Crp.logpdfScore_eq hI hL
  | categorical c => exact Categorical.logpdfScore_eq hI
  | bernoulli c => exact Bernoulli.logpdfScore_eq hI
  | normal c => exact Normal.logpdfScore_eq hI
  | normalUC c => exact NormalUC.logpdfScore_eq hI
  | poisson c => exact Poisson.logpdfScore_eq hI

theorem pred_illegal {p : Prim} {q : ℚ} (h : ¬ p.Legal (.num q)) : p.pred q = .ninf := by
  cases p with
  | crp c =>
    simp only [pred]
    rw [if_neg]
    intro h'; exact h ⟨q, rfl, h'⟩
  | categorical c => exact if_neg h
  | bernoulli c => exact if_neg h
  | normal c => exact absurd trivial h
  | normalUC c => exact absurd trivial h
  | poisson c => exact if_neg h

theorem pred_legal {p : Prim} (hI : p.Inv) (hL : LegalHypers p) {r : RowId}
    (hr : r ∉ Dict.keys p.data) {q : ℚ} (h : p.Legal (.num q)) :
    ∃ x : ℝ, p.pred q = .fin x ∧ (p.add r (.num q)).score = p.score + x := by
  cases p with
  | crp c =>
    rw [data, keys_map_data] at hr
    obtain ⟨q', hq, h⟩ := h
    cases hq
    exact ⟨_, by simp only [pred, if_pos h], Crp.score_add hI hL hr _⟩
  | categorical c =>
    refine ⟨_, if_pos h, ?_⟩
    obtain ⟨i, hi, rfl⟩ := h
    exact Categorical.score_add hI hL hr hi
  | bernoulli c =>
    exact ⟨_, if_pos h, Bernoulli.score_add hL hr h⟩
  | normal c => exact ⟨_, rfl, Normal.score_add hr q⟩
  | normalUC c => exact ⟨_, rfl, NormalUC.score_add hr q⟩
  | poisson c =>
    refine ⟨_, if_pos h, ?_⟩
    obtain ⟨i, rfl⟩ := h
    rw [Rat.cast_natCast]; exact Poisson.score_add (c := c) (r := r) i

theorem score_add_nan {p : Prim} {r : RowId} (hr : r ∉ Dict.keys p.data) (h : p.Legal .nan) :
    (p.add r .nan).score = p.score := by
  have key : ∀ d : Dict RowId Val, r ∉ Dict.keys d →
      present (valuesOf (Dict.set d r .nan)) = present (valuesOf d) := by
    intro d hd; rw [valuesOf_set hd, present_append]; simp
  cases p with
  | crp c => obtain ⟨q, hq, _⟩ := h; cases hq
  | categorical c =>
    simp only [add, score, Categorical.score, Categorical.cnt, Categorical.add]
    rw [key c.data hr]
  | bernoulli c =>
    simp only [add, score, Bernoulli.score, Bernoulli.ones, Bernoulli.zeros, Bernoulli.add]
    rw [key c.data hr]
  | normal c =>
    simp only [add, score, Normal.score, Normal.xs, Normal.add]
    rw [key c.data hr]
  | normalUC c =>
    simp only [add, score, NormalUC.score, NormalUC.xs, NormalUC.add]
    rw [key c.data hr]
  | poisson c => rfl

end Prim
end Cgpm2
