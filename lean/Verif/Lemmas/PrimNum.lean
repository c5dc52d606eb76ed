import Mathlib.Analysis.SpecialFunctions.Trigonometric.Basic
import Verif.Lemmas.CrpGibbs

/-!
# Numeric facts about Categorical, Bernoulli, Normal, NormalUC, Poisson (helpers)
-/

set_option linter.unusedSimpArgs false

namespace Cgpm2
open Spec

theorem logpdfGuard_ok {held : Bool} (hh : held = false) (o : Var) (v : Val) :
    logpdfGuard held [o] [(o, v)] [] [] = .ok () := by
  subst hh; simp [logpdfGuard, Dict.keys]

theorem pyLgamma_pos {x : ℝ} (h : 0 < x) : pyLgamma x = .ok (gammaln x) := by simp [pyLgamma, h]

namespace Categorical

theorem sum_count_range (k : Nat) (l : List ℚ) (h : ∀ q ∈ l, ∃ i : Nat, i < k ∧ q = i) :
    ((List.range k).map fun i : Nat => l.count (i : ℚ)).sum = l.length := by
  induction l with
  | nil => simp
  | cons q l ih =>
    obtain ⟨i, hi, rfl⟩ := h q (by simp)
    have ih := ih fun q hq => h q (by simp [hq])
    simp only [List.count_cons, List.length_cons]
    have : ((List.range k).map fun j : Nat => l.count (j : ℚ) + if ((i : ℚ) == (j : ℚ)) = true then 1 else 0).sum
        = ((List.range k).map fun j : Nat => l.count (j : ℚ)).sum
          + ((List.range k).map fun j : Nat => if j = i then 1 else 0).sum := by
      rw [← List.sum_map_add]
      congr 1
      apply List.map_congr_left
      intro j _
      congr 1
      by_cases h : j = i
      · subst h; simp
      · have : ¬ ((i : ℚ) = (j : ℚ)) := by
          intro h'; exact h (by exact_mod_cast h'.symm)
        simp [h, this]
    rw [this, ih]
    congr 1
    have hp := List.perm_cons_erase (List.mem_range.2 hi)
    rw [(hp.map _).sum_eq, List.map_cons, List.sum_cons]
    have : ((List.range k).erase i).map (fun j : Nat => if j = i then 1 else 0)
        = ((List.range k).erase i).map fun _ => 0 := by
      apply List.map_congr_left
      intro j hj
      have := (List.nodup_range.mem_erase_iff).1 hj
      simp [this.1]
    rw [this]
    simp

theorem present_legal {c : Categorical} (hI : c.Inv) :
    ∀ q ∈ present (valuesOf c.data), ∃ i : Nat, i < c.k ∧ q = i := by
  intro q hq
  exact hI.legal _ (mem_present.1 hq)

theorem counts_eq {c : Categorical} (hI : c.Inv) :
    c.counts = (List.range c.k).map fun i : Nat => ((present (valuesOf c.data)).count (i : ℚ) : Int) := by
  apply List.ext_getElem
  · simp [hI.len]
  · intro i h1 h2
    have := hI.counts i (by rw [← hI.len]; exact h1)
    rw [List.getD_eq_getElem?_getD, List.getElem?_eq_getElem h1] at this
    simpa using this

theorem sum_counts {c : Categorical} (hI : c.Inv) : c.counts.sum = c.N := by
  rw [counts_eq hI, hI.N, ← sum_count_range c.k _ (present_legal hI), Nat.cast_list_sum,
    List.map_map]
  rfl

/-- Number of rows in category `i`. -/
def cnt (c : Categorical) (i : Nat) : Nat := (present (valuesOf c.data)).count (i : ℚ)

theorem N_nonneg {c : Categorical} (hI : c.Inv) : (0 : ℝ) ≤ c.N := by
  rw [hI.N]; simp

theorem logpdf_num {c : Categorical} (hI : c.Inv) (hL : LegalHypers (.categorical c)) {o : Var}
    (ho : c.outputs = [o]) {r : RowId} (hr : r ∉ Dict.keys c.data) {i : Nat} (hi : i < c.k) :
    c.logpdf r [(o, .num (i : ℚ))] [] [] =
      .ok (.fin (Real.log (c.alpha + c.cnt i) - Real.log ((c.N : ℝ) + c.alpha * c.k))) := by
  have hh : Dict.has c.data r = false := (Dict.has_eq_false_iff _ _).2 hr
  have hv : valid c.k (i : ℚ) = true := valid_iff.2 ⟨i, hi, rfl⟩
  have ht : truncate (i : ℚ) = (i : Int) := by
    have := truncate_intCast (i : Int); simpa using this
  have hcnt : c.counts.getD i 0 = (c.cnt i : Int) := hI.counts i hi
  have h1 : (0 : ℝ) < c.alpha + (((c.cnt i : Nat) : Int) : ℝ) := by
    have : (0 : ℝ) ≤ (((c.cnt i : Nat) : Int) : ℝ) := by simp
    have := hL.1; linarith
  have hk : (1 : ℝ) ≤ c.k := by exact_mod_cast hL.2
  have h2 : (0 : ℝ) < ((c.counts.sum : Int) : ℝ) + c.alpha * c.counts.length := by
    rw [sum_counts hI, hI.len]
    have := N_nonneg hI
    have := mul_pos hL.1 (lt_of_lt_of_le one_pos hk)
    linarith
  unfold logpdf
  simp only [ho, logpdfGuard_ok hh, firstOutput_single, getItem_single, bind, Except.bind, hv,
    Bool.not_true, Bool.false_eq_true, if_false, ht, Int.toNat_natCast, calcPredictiveLogp, hcnt,
    pyLog_pos h1, pyLog_pos h2, pure, Except.pure]
  rw [sum_counts hI, hI.len]
  simp

theorem logpdf_illegal {c : Categorical} {o : Var}
    (ho : c.outputs = [o]) {r : RowId} (hr : r ∉ Dict.keys c.data) {q : ℚ}
    (hq : ¬ ∃ i : Nat, i < c.k ∧ q = i) :
    c.logpdf r [(o, .num q)] [] [] = .ok .ninf := by
  have hh : Dict.has c.data r = false := (Dict.has_eq_false_iff _ _).2 hr
  have hv : valid c.k q = false := by
    rw [← Bool.not_eq_true]; exact fun h => hq (valid_iff.1 h)
  unfold logpdf
  simp [ho, logpdfGuard_ok hh, firstOutput_single, getItem_single, bind, Except.bind, hv,
    pure, Except.pure]

theorem logpdf_nan {c : Categorical} {o : Var}
    (ho : c.outputs = [o]) {r : RowId} (hr : r ∉ Dict.keys c.data) :
    c.logpdf r [(o, .nan)] [] [] = .ok (.fin 0) := by
  have hh : Dict.has c.data r = false := (Dict.has_eq_false_iff _ _).2 hr
  unfold logpdf
  simp [ho, logpdfGuard_ok hh, firstOutput_single, getItem_single, bind, Except.bind,
    pure, Except.pure]

theorem sum_alpha_cnt {c : Categorical} (hI : c.Inv) :
    ((List.range c.k).map fun i => c.alpha + (c.cnt i : ℝ)).sum = (c.N : ℝ) + c.alpha * c.k := by
  rw [List.sum_map_add]
  have h := sum_count_range c.k _ (present_legal hI)
  have h2 : ((List.range c.k).map fun i => (c.cnt i : ℝ)).sum
      = ((((List.range c.k).map fun i : Nat => (present (valuesOf c.data)).count (i : ℚ)).sum : ℕ) : ℝ) := by
    rw [Nat.cast_list_sum, List.map_map]; rfl
  rw [h2, h, hI.N]
  simp
  ring

/-- The score in closed form. -/
noncomputable def score (c : Categorical) : ℝ :=
  gammaln (c.k * c.alpha) - gammaln (c.k * c.alpha + c.N)
    + ((List.range c.k).map fun i => gammaln ((c.cnt i : ℝ) + c.alpha)).sum
    - c.k * gammaln c.alpha

theorem logpdfScore_eq {c : Categorical} (hI : c.Inv) : c.logpdfScore = .ok (.fin c.score) := by
  unfold logpdfScore calcLogpdfMarginal score
  rw [hI.len]
  have : (c.counts.map fun x : Int => gammaln ((x : ℝ) + c.alpha))
      = (List.range c.k).map fun i => gammaln ((c.cnt i : ℝ) + c.alpha) := by
    conv_lhs => rw [counts_eq hI]
    rw [List.map_map]
    rfl
  simp only [this]

theorem cnt_add {c : Categorical} {r : RowId} (hr : r ∉ Dict.keys c.data) {i : Nat}
    (hi : i < c.k) (j : Nat) :
    (c.add r (.num (i : ℚ))).cnt j = c.cnt j + if j = i then 1 else 0 := by
  unfold cnt
  rw [data_add (v := .num (i : ℚ)) ⟨i, hi, rfl⟩, valuesOf_set hr, present_append, List.count_append,
    present_num]
  congr 1
  by_cases h : j = i
  · subst h; simp
  · have : ¬ ((i : ℚ) = (j : ℚ)) := by
      intro h'; exact h (by exact_mod_cast h'.symm)
    simp [h, this]

theorem sum_update_one {α : Type} [DecidableEq α] (l : List α) (hl : l.Nodup) {a : α} (ha : a ∈ l)
    (f g : α → ℝ) (h : ∀ x ∈ l, x ≠ a → g x = f x) :
    (l.map g).sum = (l.map f).sum + (g a - f a) := by
  have hp := List.perm_cons_erase ha
  rw [(hp.map g).sum_eq, (hp.map f).sum_eq]
  simp only [List.map_cons, List.sum_cons]
  have : (l.erase a).map g = (l.erase a).map f := by
    apply List.map_congr_left
    intro x hx
    have := (hl.mem_erase_iff).1 hx
    exact h x this.2 this.1
  rw [this]; ring

theorem score_add {c : Categorical} (hI : c.Inv) (hL : LegalHypers (.categorical c)) {r : RowId}
    (hr : r ∉ Dict.keys c.data) {i : Nat} (hi : i < c.k) :
    (c.add r (.num (i : ℚ))).score = c.score +
      (Real.log (c.alpha + c.cnt i) - Real.log ((c.N : ℝ) + c.alpha * c.k)) := by
  have hk : (1 : ℝ) ≤ c.k := by exact_mod_cast hL.2
  have hN := N_nonneg hI
  have hA : (0 : ℝ) < c.k * c.alpha + c.N := by
    have := mul_pos (lt_of_lt_of_le one_pos hk) hL.1
    linarith
  have ht : truncate (i : ℚ) = (i : Int) := by
    have := truncate_intCast (i : Int); simpa using this
  have e1 : (c.add r (.num (i : ℚ))).k = c.k := rfl
  have e2 : (c.add r (.num (i : ℚ))).alpha = c.alpha := rfl
  have e3 : (((c.add r (.num (i : ℚ))).N : Int) : ℝ) = c.N + 1 := by simp [add]
  unfold score
  rw [e1, e2, e3]
  have hg : gammaln ((c.k : ℝ) * c.alpha + (c.N + 1)) =
      Real.log (c.k * c.alpha + c.N) + gammaln (c.k * c.alpha + c.N) := by
    rw [← add_assoc, gammaln_add_one hA]
  rw [hg]
  rw [sum_update_one (List.range c.k) List.nodup_range (List.mem_range.2 hi)
    (fun j => gammaln ((c.cnt j : ℝ) + c.alpha))
    (fun j => gammaln (((c.add r (.num (i : ℚ))).cnt j : ℝ) + c.alpha))]
  · have hc : (0 : ℝ) < c.cnt i + c.alpha := by
      have : (0 : ℝ) ≤ c.cnt i := by simp
      linarith [hL.1]
    have : gammaln (((c.add r (.num (i : ℚ))).cnt i : ℝ) + c.alpha)
        = Real.log (c.cnt i + c.alpha) + gammaln (c.cnt i + c.alpha) := by
      rw [cnt_add hr hi, ← gammaln_add_one hc]
      congr 1; push_cast; simp; ring
    rw [this]
    rw [add_comm c.alpha (c.cnt i : ℝ), mul_comm c.alpha (c.k : ℝ),
      add_comm (c.N : ℝ) (c.k * c.alpha)]
    ring
  · intro j _ hj
    rw [cnt_add hr hi]; simp [hj]

end Categorical

namespace Bernoulli

/-- Ones and zeros held. -/
def ones (c : Bernoulli) : Nat := (present (valuesOf c.data)).count 1
def zeros (c : Bernoulli) : Nat := (present (valuesOf c.data)).count 0

theorem count_zero_one (l : List ℚ) (h : ∀ q ∈ l, q = 0 ∨ q = 1) :
    l.count 0 + l.count 1 = l.length := by
  induction l with
  | nil => simp
  | cons q l ih =>
    have ih := ih fun q hq => h q (by simp [hq])
    rcases h q (by simp) with rfl | rfl
    · simp [List.count_cons]; omega
    · simp [List.count_cons]; omega

theorem N_eq {c : Bernoulli} (hI : c.Inv) : c.N = (c.zeros : Int) + c.ones := by
  rw [hI.N, ← count_zero_one (present (valuesOf c.data))
    (fun q hq => hI.legal _ (mem_present.1 hq))]
  rfl

theorem xSum_eq {c : Bernoulli} (hI : c.Inv) : c.xSum = c.ones := hI.xSum

/-- Unnormalised weight of 0 and 1. -/
noncomputable def weight (c : Bernoulli) (one : Bool) : ℝ :=
  if one then c.ones + c.alpha else c.zeros + c.beta

theorem weight_pos {c : Bernoulli} (hL : LegalHypers (.bernoulli c)) (b : Bool) :
    0 < c.weight b := by
  have h1 : (0 : ℝ) ≤ c.ones := by simp
  have h2 : (0 : ℝ) ≤ c.zeros := by simp
  unfold weight
  split
  · linarith [hL.1]
  · linarith [hL.2]

theorem calcPredictiveLogp_eq {c : Bernoulli} (hI : c.Inv) (hL : LegalHypers (.bernoulli c))
    (b : Bool) : calcPredictiveLogp b c.N c.xSum c.alpha c.beta =
      .ok (.fin (Real.log (c.weight b) - Real.log (c.weight false + c.weight true))) := by
  have hw := weight_pos hL
  have e1 : (c.N : ℝ) + c.alpha + c.beta = c.weight false + c.weight true := by
    rw [N_eq hI]; simp [weight]; ring
  have e2 : (c.xSum : ℝ) + c.alpha = c.weight true := by
    rw [xSum_eq hI]; simp [weight]
  have e3 : (c.N : ℝ) - c.xSum + c.beta = c.weight false := by
    rw [N_eq hI, xSum_eq hI]; simp [weight]
  have hd : 0 < c.weight false + c.weight true := add_pos (hw _) (hw _)
  unfold calcPredictiveLogp
  rw [e1, e2, e3]
  cases b <;>
  simp [pyLog_pos hd, pyLog_pos (hw _), bind, Except.bind, pure, Except.pure]

theorem logpdf_num {c : Bernoulli} (hI : c.Inv) (hL : LegalHypers (.bernoulli c)) {o : Var}
    (ho : c.outputs = [o]) {r : RowId} (hr : r ∉ Dict.keys c.data) {q : ℚ} (hq : q = 0 ∨ q = 1) :
    c.logpdf r [(o, .num q)] [] [] = .ok (.fin (Real.log (c.weight (decide (q = 1)))
      - Real.log (c.weight false + c.weight true))) := by
  have hh : Dict.has c.data r = false := (Dict.has_eq_false_iff _ _).2 hr
  unfold logpdf
  simp [ho, logpdfGuard_ok hh, firstOutput_single, getItem_single, bind, Except.bind, hq,
    calcPredictiveLogp_eq hI hL]

theorem logpdf_illegal {c : Bernoulli} {o : Var}
    (ho : c.outputs = [o]) {r : RowId} (hr : r ∉ Dict.keys c.data) {q : ℚ}
    (hq : ¬ (q = 0 ∨ q = 1)) :
    c.logpdf r [(o, .num q)] [] [] = .ok .ninf := by
  have hh : Dict.has c.data r = false := (Dict.has_eq_false_iff _ _).2 hr
  unfold logpdf
  simp [ho, logpdfGuard_ok hh, firstOutput_single, getItem_single, bind, Except.bind, hq,
    pure, Except.pure]

theorem logpdf_nan {c : Bernoulli} {o : Var}
    (ho : c.outputs = [o]) {r : RowId} (hr : r ∉ Dict.keys c.data) :
    c.logpdf r [(o, .nan)] [] [] = .ok .ninf := by
  have hh : Dict.has c.data r = false := (Dict.has_eq_false_iff _ _).2 hr
  unfold logpdf
  simp [ho, logpdfGuard_ok hh, firstOutput_single, getItem_single, bind, Except.bind,
    pure, Except.pure]

noncomputable def score (c : Bernoulli) : ℝ :=
  betaln (c.ones + c.alpha) (c.zeros + c.beta) - betaln c.alpha c.beta

theorem logpdfScore_eq {c : Bernoulli} (hI : c.Inv) : c.logpdfScore = .ok (.fin c.score) := by
  unfold logpdfScore calcLogpdfMarginal score
  have e3 : (c.N : ℝ) - c.xSum + c.beta = c.zeros + c.beta := by
    rw [N_eq hI, xSum_eq hI]; simp
  rw [e3, xSum_eq hI]
  simp

theorem ones_add {c : Bernoulli} {r : RowId} (hr : r ∉ Dict.keys c.data) {q : ℚ}
    (hq : q = 0 ∨ q = 1) :
    (c.add r (.num q)).ones = c.ones + (if q = 1 then 1 else 0) ∧
    (c.add r (.num q)).zeros = c.zeros + (if q = 1 then 0 else 1) := by
  unfold ones zeros
  rw [data_add (v := .num q) hq, valuesOf_set hr, present_append, List.count_append,
    List.count_append, present_num]
  rcases hq with rfl | rfl <;> simp

theorem score_add {c : Bernoulli} (hL : LegalHypers (.bernoulli c)) {r : RowId}
    (hr : r ∉ Dict.keys c.data) {q : ℚ} (hq : q = 0 ∨ q = 1) :
    (c.add r (.num q)).score = c.score + (Real.log (c.weight (decide (q = 1)))
      - Real.log (c.weight false + c.weight true)) := by
  obtain ⟨h1, h2⟩ := ones_add hr hq
  have e1 : (c.add r (.num q)).alpha = c.alpha := rfl
  have e2 : (c.add r (.num q)).beta = c.beta := rfl
  have w1 := weight_pos hL true
  have w0 := weight_pos hL false
  have ws := add_pos w0 w1
  unfold score
  rw [h1, h2, e1, e2]
  simp only [weight, if_true, Bool.false_eq_true, if_false] at w1 w0 ws ⊢
  have hg := gammaln_add_one ws
  rcases hq with rfl | rfl
  · have hg0 := gammaln_add_one w0
    simp only [zero_ne_one, if_false, decide_false, Nat.cast_add, Nat.cast_one, Nat.cast_zero,
      add_zero, betaln]
    rw [show (c.zeros : ℝ) + 1 + c.beta = c.zeros + c.beta + 1 by ring, hg0,
      show (c.ones : ℝ) + c.alpha + (c.zeros + c.beta + 1)
        = c.zeros + c.beta + (c.ones + c.alpha) + 1 by ring, hg,
      show (c.ones : ℝ) + c.alpha + (c.zeros + c.beta)
        = c.zeros + c.beta + (c.ones + c.alpha) by ring]
    simp only [Bool.false_eq_true, if_false]
    ring
  · have hg1 := gammaln_add_one w1
    simp only [if_true, decide_true, Nat.cast_add, Nat.cast_one, Nat.cast_zero,
      add_zero, betaln]
    rw [show (c.ones : ℝ) + 1 + c.alpha = c.ones + c.alpha + 1 by ring, hg1,
      show (c.ones : ℝ) + c.alpha + 1 + (c.zeros + c.beta)
        = c.zeros + c.beta + (c.ones + c.alpha) + 1 by ring, hg,
      show (c.ones : ℝ) + c.alpha + (c.zeros + c.beta)
        = c.zeros + c.beta + (c.ones + c.alpha) by ring]
    ring

end Bernoulli

namespace Normal

/-- The present values as reals. -/
def xs (c : Normal) : List ℝ := (present (valuesOf c.data)).map fun q : ℚ => (q : ℝ)

theorem sumX_eq {c : Normal} (hI : c.Inv) : (c.sumX : ℝ) = c.xs.sum := by
  rw [hI.sumX, xs, Rat.cast_list_sum]

theorem sumXSq_eq {c : Normal} (hI : c.Inv) : (c.sumXSq : ℝ) = (c.xs.map fun x => x * x).sum := by
  rw [hI.sumXSq, xs, Rat.cast_list_sum, List.map_map, List.map_map]
  congr 1
  apply List.map_congr_left
  intro q _
  simp

theorem N_eq {c : Normal} (hI : c.Inv) : (c.N : ℝ) = c.xs.length := by
  rw [hI.N, xs]; simp

theorem cauchy (m r : ℝ) (hr : 0 < r) (l : List ℝ) :
    (r * m + l.sum) ^ 2 ≤ (r * m * m + (l.map fun x => x * x).sum) * (r + l.length) := by
  induction l with
  | nil => simp; nlinarith
  | cons x l ih =>
    simp only [List.sum_cons, List.map_cons, List.length_cons, Nat.cast_add, Nat.cast_one]
    set A := r * m * m + (l.map fun x => x * x).sum with hA
    set B := r * m + l.sum with hB
    set C := r + (l.length : ℝ) with hC
    have hCpos : 0 < C := by
      have : (0 : ℝ) ≤ l.length := by simp
      linarith
    have key : 2 * B * x ≤ A + x ^ 2 * C := by
      have h1 : 0 ≤ (B - x * C) ^ 2 := sq_nonneg _
      have h2 : (2 * B * x) * C ≤ (A + x ^ 2 * C) * C := by nlinarith
      exact le_of_mul_le_mul_right h2 hCpos
    have e1 : r * m + (x + l.sum) = B + x := by rw [hB]; ring
    have e2 : r * m * m + (x * x + (l.map fun x => x * x).sum) = A + x * x := by rw [hA]; ring
    have e3 : r + ((l.length : ℝ) + 1) = C + 1 := by rw [hC]; ring
    rw [e1, e2, e3]
    nlinarith

/-- Posterior scale for the data `l`. -/
noncomputable def sPost (m r s : ℝ) (l : List ℝ) : ℝ :=
  s + (l.map fun x => x * x).sum + r * m * m
    - (r * m + l.sum) ^ 2 / (r + l.length)

theorem sPost_ge {m r s : ℝ} (hr : 0 < r) (l : List ℝ) : s ≤ sPost m r s l := by
  have hC : 0 < r + (l.length : ℝ) := by
    have : (0 : ℝ) ≤ l.length := by simp
    linarith
  have := cauchy m r hr l
  have h2 : (r * m + l.sum) ^ 2 / (r + l.length) ≤ r * m * m + (l.map fun x => x * x).sum := by
    rw [div_le_iff₀ hC]; exact this
  unfold sPost; linarith

theorem posteriorHypers_eq {m r s nu : ℝ} (hr : 0 < r) (hs : 0 < s) (l : List ℝ) :
    posteriorHypers l.length l.sum (l.map fun x => x * x).sum m r s nu =
      (r + l.length, sPost m r s l, nu + l.length) := by
  have hC : 0 < r + (l.length : ℝ) := by
    have : (0 : ℝ) ≤ l.length := by simp
    linarith
  have h1 : s + (l.map fun x => x * x).sum + r * m * m
      - (r + l.length) * ((r * m + l.sum) / (r + l.length)) * ((r * m + l.sum) / (r + l.length))
      = sPost m r s l := by
    unfold sPost; field_simp
  have h2 := sPost_ge (m := m) (s := s) hr l
  unfold posteriorHypers
  simp only [h1]
  rw [if_neg (by linarith)]

/-- `calc_log_Z` without the exceptions. -/
noncomputable def logZ (r s nu : ℝ) : ℝ :=
  ((nu + 1) / 2) * Real.log 2 + (1/2) * Real.log Real.pi - (1/2) * Real.log r
    - (nu / 2) * Real.log s + gammaln (nu / 2)

theorem calcLogZ_eq {r s nu : ℝ} (hr : 0 < r) (hs : 0 < s) (hn : 0 < nu) :
    calcLogZ r s nu = .ok (logZ r s nu) := by
  unfold calcLogZ logZ
  rw [pyLog_pos hr, pyLog_pos hs, pyLgamma_pos (by linarith)]
  rfl

/-- log Z of the posterior for the data `l`. -/
noncomputable def logZPost (m r s nu : ℝ) (l : List ℝ) : ℝ :=
  logZ (r + l.length) (sPost m r s l) (nu + l.length)

theorem post_pos {m r s nu : ℝ} (hr : 0 < r) (hs : 0 < s) (hn : 0 < nu) (l : List ℝ) :
    0 < r + (l.length : ℝ) ∧ 0 < sPost m r s l ∧ 0 < nu + (l.length : ℝ) := by
  have : (0 : ℝ) ≤ l.length := by simp
  have h2 := sPost_ge (m := m) (s := s) hr l
  exact ⟨by linarith, by linarith, by linarith⟩

theorem sum_append_sq (l : List ℝ) (x : ℝ) :
    ((l ++ [x]).map fun x => x * x).sum = (l.map fun x => x * x).sum + x * x := by simp

theorem calcPredictiveLogp_eq {m r s nu : ℝ} (hr : 0 < r) (hs : 0 < s) (hn : 0 < nu) (l : List ℝ)
    (x : ℝ) :
    calcPredictiveLogp x l.length l.sum (l.map fun x => x * x).sum m r s nu =
      .ok (.fin (-(1/2) * log2pi + logZPost m r s nu (l ++ [x]) - logZPost m r s nu l)) := by
  have e := posteriorHypers_eq (m := m) (nu := nu) hr hs (l ++ [x])
  rw [sum_append_sq] at e
  simp only [List.length_append, List.length_cons, List.length_nil, List.sum_append,
    List.sum_cons, List.sum_nil, add_zero, zero_add, Nat.cast_add, Nat.cast_one] at e
  have p1 := post_pos (m := m) hr hs hn l
  have p2 := post_pos (m := m) hr hs hn (l ++ [x])
  simp only [List.length_append, List.length_cons, List.length_nil, zero_add, Nat.cast_add,
    Nat.cast_one] at p2
  unfold calcPredictiveLogp
  rw [posteriorHypers_eq hr hs l, e]
  simp only [calcLogZ_eq p1.1 p1.2.1 p1.2.2, calcLogZ_eq p2.1 p2.2.1 p2.2.2]
  simp [bind, Except.bind, pure, Except.pure, logZPost]

theorem logpdf_num {c : Normal} (hI : c.Inv) {o : Var}
    (ho : c.outputs = [o]) {r : RowId} (hr : r ∉ Dict.keys c.data) (q : ℚ) :
    c.logpdf r [(o, .num q)] [] [] =
      .ok (.fin (-(1/2) * log2pi + logZPost c.m c.r c.s c.nu (c.xs ++ [(q : ℝ)])
        - logZPost c.m c.r c.s c.nu c.xs)) := by
  have hh : Dict.has c.data r = false := (Dict.has_eq_false_iff _ _).2 hr
  unfold logpdf
  simp only [ho, logpdfGuard_ok hh, firstOutput_single, getItem_single, bind, Except.bind]
  rw [N_eq hI, sumX_eq hI, sumXSq_eq hI, calcPredictiveLogp_eq hI.rPos hI.sPos hI.nuPos]

theorem logpdf_nan {c : Normal} {o : Var}
    (ho : c.outputs = [o]) {r : RowId} (hr : r ∉ Dict.keys c.data) :
    c.logpdf r [(o, .nan)] [] [] = .ok (.fin 0) := by
  have hh : Dict.has c.data r = false := (Dict.has_eq_false_iff _ _).2 hr
  unfold logpdf
  simp [ho, logpdfGuard_ok hh, firstOutput_single, getItem_single, bind, Except.bind,
    pure, Except.pure]

noncomputable def score (c : Normal) : ℝ :=
  -((c.xs.length : ℝ) / 2) * log2pi + logZPost c.m c.r c.s c.nu c.xs - logZ c.r c.s c.nu

theorem logpdfScore_eq {c : Normal} (hI : c.Inv) : c.logpdfScore = .ok (.fin c.score) := by
  have p1 := post_pos (m := c.m) hI.rPos hI.sPos hI.nuPos c.xs
  unfold logpdfScore calcLogpdfMarginal score
  rw [N_eq hI, sumX_eq hI, sumXSq_eq hI, posteriorHypers_eq hI.rPos hI.sPos]
  simp only [calcLogZ_eq p1.1 p1.2.1 p1.2.2, calcLogZ_eq hI.rPos hI.sPos hI.nuPos]
  simp [bind, Except.bind, pure, Except.pure, logZPost]

theorem xs_add {c : Normal} {r : RowId} (hr : r ∉ Dict.keys c.data) (q : ℚ) :
    (c.add r (.num q)).xs = c.xs ++ [(q : ℝ)] := by
  unfold xs
  rw [data_add, valuesOf_set hr, present_append, List.map_append]; rfl

theorem score_add {c : Normal} {r : RowId} (hr : r ∉ Dict.keys c.data) (q : ℚ) :
    (c.add r (.num q)).score = c.score +
      (-(1/2) * log2pi + logZPost c.m c.r c.s c.nu (c.xs ++ [(q : ℝ)])
        - logZPost c.m c.r c.s c.nu c.xs) := by
  unfold score
  rw [xs_add hr]
  simp only [List.length_append, List.length_cons, List.length_nil, zero_add, Nat.cast_add,
    Nat.cast_one]
  change _ + logZPost c.m c.r c.s c.nu (c.xs ++ [(q : ℝ)]) - logZ c.r c.s c.nu = _
  ring

theorem logZPost_nil (m r s nu : ℝ) (_hr : 0 < r) : logZPost m r s nu [] = logZ r s nu := by
  unfold logZPost sPost
  congr 1
  · simp
  · simp; field_simp; ring
  · simp

end Normal

namespace NormalUC

def xs (c : NormalUC) : List ℝ := (present (valuesOf c.data)).map fun q : ℚ => (q : ℝ)

theorem sumX_eq {c : NormalUC} (hI : c.Inv) : (c.sumX : ℝ) = c.xs.sum := by
  rw [hI.sumX, xs, Rat.cast_list_sum]

theorem sumXSq_eq {c : NormalUC} (hI : c.Inv) :
    (c.sumXSq : ℝ) = (c.xs.map fun x => x * x).sum := by
  rw [hI.sumXSq, xs, Rat.cast_list_sum, List.map_map, List.map_map]
  congr 1
  apply List.map_congr_left
  intro q _
  simp

theorem N_eq {c : NormalUC} (hI : c.Inv) : (c.N : ℝ) = c.xs.length := by
  rw [hI.N, xs]; simp

theorem logpdf_num {c : NormalUC} {o : Var}
    (ho : c.outputs = [o]) {r : RowId} (hr : r ∉ Dict.keys c.data) (q : ℚ) :
    c.logpdf r [(o, .num q)] [] [] = .ok (.fin (normLogpdf q c.mu (Real.sqrt c.var))) := by
  have hh : Dict.has c.data r = false := (Dict.has_eq_false_iff _ _).2 hr
  unfold logpdf
  simp only [ho, logpdfGuard_ok hh, firstOutput_single, getItem_single, bind, Except.bind, pure,
    Except.pure]

theorem logpdf_nan {c : NormalUC} {o : Var}
    (ho : c.outputs = [o]) {r : RowId} (hr : r ∉ Dict.keys c.data) :
    c.logpdf r [(o, .nan)] [] [] = .ok (.fin 0) := by
  have hh : Dict.has c.data r = false := (Dict.has_eq_false_iff _ _).2 hr
  unfold logpdf
  simp [ho, logpdfGuard_ok hh, firstOutput_single, getItem_single, bind, Except.bind,
    pure, Except.pure]

/-- The log density of `x`. -/
noncomputable def lp (mu var x : ℝ) : ℝ :=
  -(1/2) * Normal.log2pi - (1/2) * Real.log var - (x - mu) ^ 2 / (2 * var)

theorem normLogpdf_eq {mu var : ℝ} (hv : 0 < var) (x : ℝ) :
    normLogpdf x mu (Real.sqrt var) = lp mu var x := by
  unfold normLogpdf lp Normal.log2pi
  rw [Real.log_sqrt hv.le, Real.log_sqrt (by positivity), Real.log_mul (by norm_num) Real.pi_ne_zero,
    div_pow, Real.sq_sqrt hv.le]
  field_simp
  ring

noncomputable def score (c : NormalUC) : ℝ := (c.xs.map (lp c.mu c.var)).sum

theorem score_closed (mu var : ℝ) (hv : 0 < var) (l : List ℝ) :
    (l.map (lp mu var)).sum = -((l.length : ℝ) / 2) * Normal.log2pi
      + -((l.length : ℝ) / 2) * Real.log var
      + -1 / (2 * var) * ((l.map fun x => x * x).sum - 2 * mu * l.sum + l.length * mu ^ 2) := by
  induction l with
  | nil => simp
  | cons x l ih =>
    simp only [List.map_cons, List.sum_cons, ih, List.length_cons, Nat.cast_add, Nat.cast_one, lp]
    field_simp
    ring

theorem logpdfScore_eq {c : NormalUC} (hI : c.Inv) : c.logpdfScore = .ok (.fin c.score) := by
  unfold logpdfScore score
  rw [score_closed _ _ hI.var, N_eq hI, sumX_eq hI, sumXSq_eq hI, pyLog_pos hI.var]
  rfl

theorem xs_add {c : NormalUC} {r : RowId} (hr : r ∉ Dict.keys c.data) (q : ℚ) :
    (c.add r (.num q)).xs = c.xs ++ [(q : ℝ)] := by
  unfold xs
  rw [data_add, valuesOf_set hr, present_append, List.map_append]; rfl

theorem score_add {c : NormalUC} {r : RowId} (hr : r ∉ Dict.keys c.data) (q : ℚ) :
    (c.add r (.num q)).score = c.score + lp c.mu c.var q := by
  unfold score
  rw [xs_add hr]
  change ((c.xs ++ [(q : ℝ)]).map (lp c.mu c.var)).sum = _
  simp

end NormalUC

namespace Poisson

/-- The present values. -/
def qs (c : Poisson) : List ℚ := present (valuesOf c.data)

theorem sumX_nonneg {c : Poisson} (hI : c.Inv) : (0 : ℝ) ≤ c.sumX := by
  have : (0 : ℚ) ≤ c.sumX := by
    rw [hI.sumX]
    apply List.sum_nonneg
    intro q hq
    obtain ⟨i, rfl⟩ := hI.legal _ (mem_present.1 hq)
    simp
  exact_mod_cast this

theorem N_nonneg {c : Poisson} (hI : c.Inv) : (0 : ℝ) ≤ c.N := by rw [hI.N]; simp

/-- log predictive probability of `x`. -/
noncomputable def lp (c : Poisson) (x : ℝ) : ℝ :=
  (gammaln (c.a + (c.sumX + x)) - (c.a + (c.sumX + x)) * Real.log (c.b + (c.N + 1)))
    - (gammaln (c.a + c.sumX) - (c.a + c.sumX) * Real.log (c.b + c.N)) - gammaln (x + 1)

theorem logpdf_num {c : Poisson} (hI : c.Inv) {o : Var}
    (ho : c.outputs = [o]) {r : RowId} (hr : r ∉ Dict.keys c.data) (i : Nat) :
    c.logpdf r [(o, .num (i : ℚ))] [] [] = .ok (.fin (c.lp i)) := by
  have hh : Dict.has c.data r = false := (Dict.has_eq_false_iff _ _).2 hr
  have hv : valid (i : ℚ) = true := valid_iff.2 ⟨i, rfl⟩
  have hN := N_nonneg hI
  have h1 : (0 : ℝ) < c.b + c.N := by linarith [hI.b]
  have h2 : (0 : ℝ) < c.b + (c.N + 1) := by linarith [hI.b]
  unfold logpdf
  simp [ho, logpdfGuard_ok hh, firstOutput_single, getItem_single, bind, Except.bind, hv,
    calcPredictiveLogp, calcLogZ, posteriorHypers, pyLog_pos h1, pyLog_pos h2, pure, Except.pure, lp]

theorem logpdf_illegal {c : Poisson} {o : Var}
    (ho : c.outputs = [o]) {r : RowId} (hr : r ∉ Dict.keys c.data) {q : ℚ}
    (hq : ¬ ∃ i : Nat, q = i) :
    c.logpdf r [(o, .num q)] [] [] = .ok .ninf := by
  have hh : Dict.has c.data r = false := (Dict.has_eq_false_iff _ _).2 hr
  have hv : valid q = false := by
    rw [← Bool.not_eq_true]; exact fun h => hq (valid_iff.1 h)
  unfold logpdf
  simp [ho, logpdfGuard_ok hh, firstOutput_single, getItem_single, bind, Except.bind, hv,
    pure, Except.pure]

theorem logpdf_nan {c : Poisson} {o : Var}
    (ho : c.outputs = [o]) {r : RowId} (hr : r ∉ Dict.keys c.data) :
    c.logpdf r [(o, .nan)] [] [] = .ok .ninf := by
  have hh : Dict.has c.data r = false := (Dict.has_eq_false_iff _ _).2 hr
  unfold logpdf
  simp [ho, logpdfGuard_ok hh, firstOutput_single, getItem_single, bind, Except.bind,
    pure, Except.pure]

noncomputable def score (c : Poisson) : ℝ :=
  (gammaln (c.a + c.sumX) - (c.a + c.sumX) * Real.log (c.b + c.N))
    - (gammaln c.a - c.a * Real.log c.b) - c.sumLogFactX

theorem logpdfScore_eq {c : Poisson} (hI : c.Inv) : c.logpdfScore = .ok (.fin c.score) := by
  have hN := N_nonneg hI
  have h1 : (0 : ℝ) < c.b + c.N := by linarith [hI.b]
  unfold logpdfScore
  simp [calcLogpdfMarginal, calcLogZ, posteriorHypers, pyLog_pos h1, pyLog_pos hI.b,
    bind, Except.bind, pure, Except.pure, score]

theorem score_add {c : Poisson} {r : RowId} (i : Nat) :
    (c.add r (.num (i : ℚ))).score = c.score + c.lp i := by
  simp only [score, add, lp]
  push_cast
  ring

end Poisson
end Cgpm2
