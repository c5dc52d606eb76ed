import Mathlib.MeasureTheory.Measure.Lebesgue.Basic
import Verif.Py.Fl

/-!
# Specification vocabulary: the chance of an event over the next uniform variate
-/

namespace Cgpm2.Spec
open MeasureTheory

/-- The random state `rng` with its next uniform variate replaced by `u`. -/
def withUniform (u : ℝ) (rng : Rng) : Rng := fun n => if n = 0 then ⟨u, (rng 0).x⟩ else rng n

/-- The probability, over a uniform variate `u` in `[0, 1)`, of the event `E u`. -/
noncomputable def chance (E : ℝ → Prop) : ENNReal := volume {u : ℝ | u ∈ Set.Ico 0 1 ∧ E u}

end Cgpm2.Spec
