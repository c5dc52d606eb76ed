import Verif.Py.Fl

/-!
# Specification vocabulary: the probability a `logpdf` call reports
-/

namespace Cgpm2.Spec

/-- `exp` of the returned log-probability; 0 for `-inf`.  Statements using `prob` also say that
the call returned a log-probability. -/
noncomputable def prob : Except Err Fl → ℝ
  | .ok x => Fl.exp x
  | .error _ => 0

@[simp] theorem prob_fin (x : ℝ) : prob (.ok (.fin x)) = Real.exp x := rfl
@[simp] theorem prob_ninf : prob (.ok .ninf) = 0 := rfl

/-- The call returned a finite number. -/
def Finite (r : Except Err Fl) : Prop := ∃ x : ℝ, r = .ok (.fin x)

end Cgpm2.Spec
