import Mathlib.Analysis.Analytic.Binomial
import Mathlib.Analysis.SpecialFunctions.Gamma.Basic

/-!
# The negative binomial series (helper)
-/

namespace Cgpm2

theorem Gamma_add_nat {a : ℝ} (ha : 0 < a) (n : Nat) :
    Real.Gamma (a + n) = Real.Gamma a * (ascPochhammer ℝ n).eval a := by
  induction n with
  | zero => simp
  | succ n ih =>
    have h : a + n ≠ 0 := by positivity
    rw [Nat.cast_succ, ← add_assoc, Real.Gamma_add_one h, ih, ascPochhammer_succ_eval]
    ring

theorem choose_eq {a : ℝ} (ha : 0 < a) (n : Nat) :
    Ring.choose (a + n - 1) n = Real.Gamma (a + n) / (Real.Gamma a * n.factorial) := by
  have h := Ring.factorial_nsmul_multichoose_eq_ascPochhammer a n
  rw [Ring.multichoose_eq, Polynomial.ascPochhammer_smeval_eq_eval] at h
  have hG := Real.Gamma_pos_of_pos ha
  have hf : (n.factorial : ℝ) ≠ 0 := by positivity
  rw [Gamma_add_nat ha, ← h, nsmul_eq_mul]
  field_simp

theorem hasSum_negBinomial {a p : ℝ} (ha : 0 < a) (hp0 : 0 ≤ p) (hp1 : p < 1) :
    HasSum (fun n : Nat => Real.Gamma (a + n) / (Real.Gamma a * n.factorial) * p ^ n)
      (1 / (1 - p) ^ a) := by
  have h := (Real.one_div_one_sub_rpow_hasFPowerSeriesOnBall_zero a).hasSum (y := p)
    (by
      simp only [Metric.mem_eball, edist_zero_right, enorm_eq_nnnorm]
      have : ‖p‖₊ < 1 := by
        rw [← NNReal.coe_lt_coe]; simpa [abs_of_nonneg hp0] using hp1
      exact_mod_cast this)
  simp only [FormalMultilinearSeries.ofScalars_apply_eq, smul_eq_mul, zero_add, choose_eq ha] at h
  exact h

end Cgpm2
