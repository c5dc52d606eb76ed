import Mathlib.Analysis.SpecialFunctions.Gaussian.GaussianIntegral
import Mathlib.MeasureTheory.Measure.Prod
import Mathlib.MeasureTheory.Measure.Lebesgue.Integral

/-!
# The integral of `(b + c (x - m)²) ^ (-a)` over the real line (helper)
-/

namespace Cgpm2
open MeasureTheory Set

theorem lintegral_gamma {a y : ℝ} (ha : 0 < a) (hy : 0 < y) :
    ∫⁻ t in Ioi (0 : ℝ), ENNReal.ofReal (t ^ (a - 1) * Real.exp (-(y * t)))
      = ENNReal.ofReal ((1 / y) ^ a * Real.Gamma a) := by
  have key := Real.integral_rpow_mul_exp_neg_mul_Ioi ha hy
  have hG := Real.Gamma_pos_of_pos ha
  have hint : IntegrableOn (fun t : ℝ => t ^ (a - 1) * Real.exp (-(y * t))) (Ioi 0) :=
    .of_integral_ne_zero (by rw [key]; positivity)
  rw [← key, ofReal_integral_eq_lintegral_ofReal hint]
  rw [Filter.EventuallyLE, ae_restrict_iff' measurableSet_Ioi]
  refine ae_of_all _ fun t (ht : 0 < t) => ?_
  simp only [Pi.zero_apply]; positivity

theorem lintegral_gauss {b : ℝ} (hb : 0 < b) :
    ∫⁻ x : ℝ, ENNReal.ofReal (Real.exp (-b * x ^ 2)) = ENNReal.ofReal (Real.sqrt (Real.pi / b)) := by
  rw [← integral_gaussian b, ofReal_integral_eq_lintegral_ofReal (integrable_exp_neg_mul_sq hb)]
  exact ae_of_all _ fun x => (Real.exp_pos _).le

theorem lintegral_student {a b c : ℝ} (ha : 1 / 2 < a) (hb : 0 < b) (hc : 0 < c) :
    ∫⁻ x : ℝ, ENNReal.ofReal (Real.Gamma a * (b + c * x ^ 2) ^ (-a))
      = ENNReal.ofReal (Real.sqrt (Real.pi / c) * (Real.Gamma (a - 1 / 2) * b ^ (-(a - 1 / 2)))) := by
  have ha0 : 0 < a := by linarith
  have h1 : ∀ x : ℝ, ENNReal.ofReal (Real.Gamma a * (b + c * x ^ 2) ^ (-a))
      = ∫⁻ t in Ioi (0 : ℝ), ENNReal.ofReal (t ^ (a - 1) * Real.exp (-((b + c * x ^ 2) * t))) := by
    intro x
    have hy : 0 < b + c * x ^ 2 := by positivity
    rw [lintegral_gamma ha0 hy, one_div, Real.inv_rpow hy.le, Real.rpow_neg hy.le, mul_comm]
  simp_rw [h1]
  rw [lintegral_lintegral_swap]
  · have h2 : ∀ t ∈ Ioi (0 : ℝ),
        ∫⁻ x : ℝ, ENNReal.ofReal (t ^ (a - 1) * Real.exp (-((b + c * x ^ 2) * t)))
        = ENNReal.ofReal (Real.sqrt (Real.pi / c)) *
          ENNReal.ofReal (t ^ ((a - 1 / 2) - 1) * Real.exp (-(b * t))) := by
      intro t ht
      have ht : 0 < t := ht
      have e : ∀ x : ℝ, ENNReal.ofReal (t ^ (a - 1) * Real.exp (-((b + c * x ^ 2) * t)))
          = ENNReal.ofReal (t ^ (a - 1) * Real.exp (-(b * t))) *
            ENNReal.ofReal (Real.exp (-(c * t) * x ^ 2)) := by
        intro x
        rw [← ENNReal.ofReal_mul (by positivity), mul_assoc, ← Real.exp_add]
        congr 3; ring
      simp_rw [e]
      rw [lintegral_const_mul' _ _ ENNReal.ofReal_ne_top, lintegral_gauss (by positivity),
        ← ENNReal.ofReal_mul (by positivity), ← ENNReal.ofReal_mul (by positivity)]
      congr 1
      have e2 : Real.sqrt (Real.pi / (c * t)) = Real.sqrt (Real.pi / c) * t ^ (-(1 / 2 : ℝ)) := by
        rw [Real.rpow_neg ht.le, ← Real.sqrt_eq_rpow, ← div_div, Real.sqrt_div (by positivity),
          div_eq_mul_inv]
      have e3 : t ^ ((a - 1 / 2) - 1) = t ^ (a - 1) * t ^ (-(1 / 2 : ℝ)) := by
        rw [← Real.rpow_add ht]; congr 1; ring
      rw [e2, e3]; ring
    rw [setLIntegral_congr_fun measurableSet_Ioi h2,
      lintegral_const_mul' _ _ ENNReal.ofReal_ne_top, lintegral_gamma (by linarith) hb,
      ← ENNReal.ofReal_mul (by positivity)]
    congr 1
    rw [one_div, Real.inv_rpow hb.le, Real.rpow_neg hb.le]; ring
  · apply Measurable.aemeasurable
    change Measurable fun z : ℝ × ℝ =>
      ENNReal.ofReal (z.2 ^ (a - 1) * Real.exp (-((b + c * z.1 ^ 2) * z.2)))
    fun_prop

/-- The value of the integral. -/
noncomputable def studentConst (a b c : ℝ) : ℝ :=
  Real.sqrt (Real.pi / c) * (Real.Gamma (a - 1 / 2) * b ^ (-(a - 1 / 2))) / Real.Gamma a

theorem integral_student {a b c : ℝ} (ha : 1 / 2 < a) (hb : 0 < b) (hc : 0 < c) (m : ℝ) :
    ∫ x : ℝ, (b + c * (x - m) ^ 2) ^ (-a) = studentConst a b c := by
  have ha0 : 0 < a := by linarith
  have hG := Real.Gamma_pos_of_pos ha0
  have hG' := Real.Gamma_pos_of_pos (show 0 < a - 1 / 2 by linarith)
  rw [integral_sub_right_eq_self (fun x : ℝ => (b + c * x ^ 2) ^ (-a)) m]
  have h : ∫ x : ℝ, Real.Gamma a * (b + c * x ^ 2) ^ (-a) = Real.sqrt (Real.pi / c) *
      (Real.Gamma (a - 1 / 2) * b ^ (-(a - 1 / 2))) := by
    rw [integral_eq_lintegral_of_nonneg_ae, lintegral_student ha hb hc, ENNReal.toReal_ofReal]
    · positivity
    · exact ae_of_all _ fun x => by simp only [Pi.zero_apply]; positivity
    · apply Measurable.aestronglyMeasurable; fun_prop
  rw [integral_const_mul] at h
  rw [studentConst, ← h]
  field_simp

end Cgpm2
