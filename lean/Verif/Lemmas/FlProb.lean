import Verif.Lemmas.FlSum
import Verif.Lemmas.Flip

/-!
# Arithmetic of log-probabilities (helpers)
-/

namespace Cgpm2.Fl

theorem isLogP_fin (x : ℝ) : (Fl.fin x).IsLogP := trivial
theorem isLogP_zero : (0 : Fl).IsLogP := trivial

theorem isLogP_add {a b : Fl} (ha : a.IsLogP) (hb : b.IsLogP) : (a + b).IsLogP := by
  cases a <;> cases b <;> simp_all only [IsLogP] <;> trivial

theorem exp_add {a b : Fl} (ha : a.IsLogP) (hb : b.IsLogP) : (a + b).exp = a.exp * b.exp := by
  cases a <;> cases b <;> simp_all only [IsLogP, exp, mul_zero, zero_mul]
  · rfl
  · rfl
  · rfl
  · exact Real.exp_add _ _

theorem exp_zero : (0 : Fl).exp = 1 := Real.exp_zero

theorem exp_inj {a b : Fl} (ha : a.IsLogP) (hb : b.IsLogP) (h : a.exp = b.exp) : a = b := by
  cases a <;> cases b <;> simp_all [IsLogP, exp]
  · exact absurd h.symm (Real.exp_pos _).ne'

theorem exp_pos_iff {a : Fl} (ha : a.IsLogP) : 0 < a.exp ↔ ∃ x, a = .fin x := by
  cases a <;> simp_all [IsLogP, exp, Real.exp_pos]

theorem exp_eq_zero_iff {a : Fl} (ha : a.IsLogP) : a.exp = 0 ↔ a = .ninf := by
  cases a <;> simp_all [IsLogP, exp, Real.exp_ne_zero]

theorem isLogP_sub_fin {a : Fl} (ha : a.IsLogP) (y : ℝ) : (a - .fin y).IsLogP := by
  cases a <;> simp_all only [IsLogP] <;> trivial

theorem exp_sub_fin {a : Fl} (ha : a.IsLogP) (y : ℝ) :
    (a - .fin y).exp = a.exp / Real.exp y := by
  cases a <;> simp_all only [IsLogP, exp, zero_div]
  · rfl
  · next r =>
    change Real.exp (r + -y) = _
    rw [← sub_eq_add_neg, Real.exp_sub]

theorem sub_fin_zero {a : Fl} (ha : a.IsLogP) : a - .fin 0 = a := by
  cases a <;> simp_all only [IsLogP]
  · rfl
  · next r =>
    change Fl.fin (r + -0) = _
    simp

theorem sub_zero' {a : Fl} (ha : a.IsLogP) : a - 0 = a := sub_fin_zero ha

theorem isLogP_ofProb (p : ℝ) : (ofProb p).IsLogP := by
  unfold ofProb; split <;> trivial

theorem exp_ofProb {p : ℝ} (h : 0 ≤ p) : (ofProb p).exp = p := by
  unfold ofProb
  split
  · next h => rw [h]; rfl
  · next h' => exact Real.exp_log (lt_of_le_of_ne h (Ne.symm h'))

theorem sum_exp_nonneg (l : List Fl) : 0 ≤ (l.map exp).sum :=
  List.sum_nonneg (by
    intro x hx
    obtain ⟨y, -, rfl⟩ := List.mem_map.1 hx
    exact exp_nonneg y)

theorem logsumexp_eq {l : List Fl} (h : ∀ x ∈ l, x.IsLogP) :
    logsumexp l = ofProb (l.map exp).sum := if_pos ((all_iff l).2 h)

theorem isLogP_logsumexp {l : List Fl} (h : ∀ x ∈ l, x.IsLogP) : (logsumexp l).IsLogP := by
  rw [logsumexp_eq h]
  exact isLogP_ofProb _

theorem exp_logsumexp {l : List Fl} (h : ∀ x ∈ l, x.IsLogP) :
    (logsumexp l).exp = (l.map exp).sum := by
  rw [logsumexp_eq h, exp_ofProb (sum_exp_nonneg l)]

theorem logsumexp_fin {l : List Fl} (h : ∀ x ∈ l, x.IsLogP) (hs : (l.map exp).sum ≠ 0) :
    logsumexp l = .fin (Real.log (l.map exp).sum) := by
  rw [logsumexp_eq h]
  unfold ofProb
  rw [if_neg hs]

theorem isLogP_sum {l : List Fl} (h : ∀ x ∈ l, x.IsLogP) : l.sum.IsLogP := by
  induction l with
  | nil => exact isLogP_zero
  | cons a l ih =>
    rw [List.sum_cons]
    exact isLogP_add (h a (by simp)) (ih fun x hx => h x (by simp [hx]))

end Cgpm2.Fl
