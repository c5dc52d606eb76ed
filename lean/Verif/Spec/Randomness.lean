import Mathlib.Probability.ProductMeasure
import Mathlib.MeasureTheory.Measure.Lebesgue.Basic
import Verif.Spec.Samples

/-!
# Specification vocabulary: probabilities over the whole stream of draws
-/

namespace Cgpm2.Spec
open MeasureTheory

/-- Events about one entry of the stream are events about its two numbers. -/
instance : MeasurableSpace Draw := MeasurableSpace.comap (fun d : Draw => (d.u, d.x)) inferInstance

/-- `μ` is a possible law of one entry of the stream: its uniform variate is uniform on `[0, 1)`.
Nothing is asked of the other number. -/
def IsDraw (μ : Measure Draw) : Prop :=
  IsProbabilityMeasure μ ∧ μ.map Draw.u = volume.restrict (Set.Ico 0 1)

/-- The probability of an event when the entries of the stream are independent draws from `μ`. -/
noncomputable def probability (μ : Measure Draw) [IsProbabilityMeasure μ] (E : Rng → Prop) : ENNReal :=
  Measure.infinitePi (fun _ : Nat => μ) {g | E g}

/-- A CRP, a Categorical or a Bernoulli. -/
def Discrete (p : Prim) : Prop := p.kind = .crp ∨ p.kind = .categorical ∨ p.kind = .bernoulli

/-- Every primitive inside the model that has the output `v` is a CRP, a Categorical or a
Bernoulli.  (Row dividers are in any case.) -/
def DiscreteAt : (n : Nat) → Cgpm n → Var → Prop
  | 0, p, v => v ∈ Prim.outputs p → Discrete p
  | _ + 1, .prim p, v => v ∈ p.outputs → Discrete p
  | n + 1, .product p, v => ∀ c ∈ p.cgpms, DiscreteAt n c v
  | n + 1, .finMix m, v => ∀ c ∈ m.array.cgpms, DiscreteAt n c v
  | n + 1, .flexMix m, v => ∀ c ∈ m.array.base :: Dict.values m.array.cgpms, DiscreteAt n c v
  | _ + 1, .finArray _, _ => False
  | _ + 1, .flexArray _, _ => False

/-- The targets with the values that `a` gives them. -/
def valued (t : List Var) (a : Var → Int) : Dict Var Val := t.map fun v => (v, .num (a v : ℚ))

/-- `simulate` answered with one sample, which gives the targets their values under `a`. -/
def Hits (t : List Var) (a : Var → Int) (r : Except Err SimOut) : Prop :=
  ∃ out s, r = .ok out ∧ samplesOf out = [s] ∧ ∀ v ∈ t, Dict.get? s v = some (.num (a v : ℚ))

end Cgpm2.Spec
