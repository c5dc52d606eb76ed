import Mathlib.Probability.Distributions.Gaussian.Real
import Verif.Lemmas.PrimNum
import Verif.Lemmas.StudentT
import Verif.Lemmas.NegBinomial
import Verif.Lemmas.Concrete
import Verif.Spec.Prob

/-!
# Properties C10 and C11: the Poisson predictive sums to one, the normal ones integrate to one
-/

namespace Cgpm2.Props
open Spec

/-! ## C10 -/

/-- The probabilities `logpdf` reports for 0, 1, 2, ... are finite numbers and sum to one; every
number that is not a natural number has probability 0. -/
theorem C10_poisson {c : Poisson} (h : LegallyReachable (.poisson c)) {o : Var}
    (ho : c.outputs = [o]) {r : RowId} (hr : Dict.get? c.data r = none) :
    (∀ n : Nat, Finite (c.logpdf r [(o, .num (n : ℚ))] [] [])) ∧
    HasSum (fun n : Nat => prob (c.logpdf r [(o, .num (n : ℚ))] [] [])) 1 ∧
    ∀ q : ℚ, (¬ ∃ n : Nat, q = n) → c.logpdf r [(o, .num q)] [] [] = .ok .ninf := by
  have hI : c.Inv := h.inv
  rw [Dict.get?_eq_none_iff] at hr
  refine ⟨fun n => ⟨_, Poisson.logpdf_num hI ho hr n⟩, ?_, fun q hq =>
    Poisson.logpdf_illegal ho hr hq⟩
  have hN := Poisson.N_nonneg hI
  have hX := Poisson.sumX_nonneg hI
  set A : ℝ := c.a + c.sumX with hA
  set B : ℝ := c.b + c.N with hB
  have hA0 : 0 < A := by have := hI.a; linarith
  have hB0 : 0 < B := by have := hI.b; linarith
  have hp1 : 1 / (B + 1) < 1 := by rw [div_lt_one (by linarith)]; linarith
  have hs := hasSum_negBinomial hA0 (p := 1 / (B + 1)) (by positivity) hp1
  have hs' := hs.mul_left ((B / (B + 1)) ^ A)
  have e1 : 1 - 1 / (B + 1) = B / (B + 1) := by field_simp; ring
  have hpos : 0 < (B / (B + 1)) ^ A := by positivity
  rw [e1, mul_one_div_cancel hpos.ne'] at hs'
  refine (congrArg (fun f : ℕ → ℝ => HasSum f 1) (funext fun n => ?_)).mpr hs'
  rw [Poisson.logpdf_num hI ho hr n, prob_fin, Poisson.lp]
  have e2 : c.a + ((c.sumX : ℝ) + (n : ℝ)) = A + n := by rw [hA]; ring
  have e3 : c.b + ((c.N : ℝ) + 1) = B + 1 := by rw [hB]; ring
  rw [e2, e3]
  have g1 : 0 < Real.Gamma (A + n) := Real.Gamma_pos_of_pos (by positivity)
  have g2 : 0 < Real.Gamma A := Real.Gamma_pos_of_pos hA0
  have g3 : Real.Gamma ((n : ℝ) + 1) = n.factorial := Real.Gamma_nat_eq_factorial n
  have g4 : (0 : ℝ) < n.factorial := by positivity
  unfold gammaln
  rw [g3]
  have e4 : Real.log (Real.Gamma (A + n)) - (A + n) * Real.log (B + 1) -
      (Real.log (Real.Gamma A) - A * Real.log B) - Real.log n.factorial
      = (Real.log B - Real.log (B + 1)) * A + (Real.log (Real.Gamma (A + n))
        - (Real.log (Real.Gamma A) + Real.log n.factorial)) + (n : ℝ) * (- Real.log (B + 1)) := by
    ring
  rw [e4, Real.exp_add, Real.exp_add, Real.exp_sub, Real.exp_add, Real.exp_log g1,
    Real.exp_log g2, Real.exp_log g4, Real.exp_nat_mul, Real.exp_neg,
    Real.exp_log (show 0 < B + 1 by linarith), ← Real.log_div hB0.ne' (by linarith),
    ← Real.rpow_def_of_pos (by positivity), one_div, mul_assoc]

example : LegallyReachable Concrete.poi2 := Concrete.poi2_legally

/-! ## C11 -/

/-- The density of a Normal: there is a continuous positive function on the reals whose integral
is one, and at every number `logpdf` returns its logarithm.  (Observed numbers are rational in the
model; a continuous function is determined by its values at the rationals.) -/
theorem C11_normal {c : Normal} (h : LegallyReachable (.normal c)) {o : Var}
    (ho : c.outputs = [o]) {r : RowId} (hr : Dict.get? c.data r = none) :
    ∃ f : ℝ → ℝ, Continuous f ∧ (∀ x, 0 < f x) ∧ ∫ x, f x = 1 ∧
      ∀ q : ℚ, c.logpdf r [(o, .num q)] [] [] = .ok (.fin (Real.log (f q))) := by
  have hI : c.Inv := h.inv
  rw [Dict.get?_eq_none_iff] at hr
  obtain ⟨hr0, hs0, hn0⟩ := Normal.post_pos (m := c.m) hI.rPos hI.sPos hI.nuPos c.xs
  set R : ℝ := c.r + c.xs.length with hR
  set S : ℝ := Normal.sPost c.m c.r c.s c.xs with hS
  set nu : ℝ := c.nu + c.xs.length with hnu
  set M : ℝ := (c.r * c.m + c.xs.sum) / R with hM
  set C : ℝ := R / (R + 1) with hC
  set a : ℝ := (nu + 1) / 2 with ha
  have hC0 : 0 < C := by positivity
  have hb : ∀ x : ℝ, 0 < S + C * (x - M) ^ 2 := fun x => by positivity
  have hsp : ∀ x : ℝ, Normal.sPost c.m c.r c.s (c.xs ++ [x]) = S + C * (x - M) ^ 2 := by
    intro x
    rw [hS, Normal.sPost, Normal.sPost, Normal.sum_append_sq]
    simp only [List.length_append, List.length_cons, List.length_nil, zero_add, Nat.cast_add,
      Nat.cast_one, List.sum_append, List.sum_cons, List.sum_nil, add_zero]
    rw [← add_assoc c.r, ← hR, hC, hM]
    field_simp
    ring
  have hK : 0 < studentConst a S C := by
    have g1 := Real.Gamma_pos_of_pos (show 0 < a by positivity)
    have g2 := Real.Gamma_pos_of_pos (show 0 < a - 1 / 2 by rw [ha]; linarith)
    unfold studentConst; positivity
  refine ⟨fun x => (studentConst a S C)⁻¹ * (S + C * (x - M) ^ 2) ^ (-a), ?_, ?_, ?_, ?_⟩
  · refine continuous_const.mul (Continuous.rpow_const (by fun_prop) fun x => Or.inl (hb x).ne')
  · intro x; have := hb x; positivity
  · rw [MeasureTheory.integral_const_mul, integral_student (by rw [ha]; linarith) hs0 hC0,
      inv_mul_cancel₀ hK.ne']
  · intro q
    have := Normal.logpdf_num hI ho hr q
    rw [this]
    congr 2
    rw [Normal.logZPost, Normal.logZPost, hsp]
    simp only [List.length_append, List.length_cons, List.length_nil, zero_add, Nat.cast_add,
      Nat.cast_one]
    rw [← add_assoc c.r, ← add_assoc c.nu, ← hR, ← hnu, ← hS]
    have g1 := Real.Gamma_pos_of_pos (show 0 < a by positivity)
    have g2 := Real.Gamma_pos_of_pos (show 0 < a - 1 / 2 by rw [ha]; linarith)
    have e1 : a - 1 / 2 = nu / 2 := by rw [ha]; ring
    rw [Real.log_mul (by positivity) (Real.rpow_pos_of_pos (hb q) _).ne', Real.log_inv,
      Real.log_rpow (hb q), studentConst, Real.log_div (by positivity) g1.ne',
      Real.log_mul (by positivity) (by positivity), Real.log_mul g2.ne' (by positivity),
      Real.log_sqrt (by positivity), Real.log_rpow hs0, Real.log_div (by positivity) hC0.ne', hC,
      Real.log_div hr0.ne' (by positivity), e1]
    unfold Normal.logZ Normal.log2pi gammaln
    rw [← ha]
    ring

example : LegallyReachable Concrete.norm3 := Concrete.norm3_legally

/-- The same for a NormalUC. -/
theorem C11_normalUC {c : NormalUC} (h : LegallyReachable (.normalUC c)) {o : Var}
    (ho : c.outputs = [o]) {r : RowId} (hr : Dict.get? c.data r = none) :
    ∃ f : ℝ → ℝ, Continuous f ∧ (∀ x, 0 < f x) ∧ ∫ x, f x = 1 ∧
      ∀ q : ℚ, c.logpdf r [(o, .num q)] [] [] = .ok (.fin (Real.log (f q))) := by
  have hv : 0 < c.var := h.legal
  rw [Dict.get?_eq_none_iff] at hr
  set v : NNReal := ⟨c.var, hv.le⟩ with hvdef
  have hv0 : v ≠ 0 := by
    intro h0; exact hv.ne' (congrArg NNReal.toReal h0)
  refine ⟨ProbabilityTheory.gaussianPDFReal c.mu v, ?_,
    fun x => ProbabilityTheory.gaussianPDFReal_pos c.mu v x hv0,
    ProbabilityTheory.integral_gaussianPDFReal_eq_one c.mu hv0, fun q => ?_⟩
  · unfold ProbabilityTheory.gaussianPDFReal; fun_prop
  · rw [NormalUC.logpdf_num ho hr q, NormalUC.normLogpdf_eq hv]
    congr 2
    unfold NormalUC.lp Normal.log2pi
    have hp := Real.pi_pos
    have hvv : (v : ℝ) = c.var := rfl
    rw [ProbabilityTheory.gaussianPDFReal, Real.log_mul (by positivity) (Real.exp_pos _).ne',
      Real.log_exp, Real.log_inv, hvv, Real.log_sqrt (by positivity),
      Real.log_mul (by positivity) (by positivity), Real.log_mul (by norm_num) hp.ne']
    ring

example : LegallyReachable Concrete.normUC2 := Concrete.normUC2_legally

end Cgpm2.Props
