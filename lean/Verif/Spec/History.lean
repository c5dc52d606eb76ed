import Verif.Model.Prim

/-!
# Specification vocabulary: histories of calls on a primitive

A history starts from a constructor call with one output variable and then performs any calls
with any arguments; calls that raise leave the object in whatever state they leave it, and
the history goes on.
-/

namespace Cgpm2.Spec

/-- A state-changing call on a primitive. -/
inductive Call
  | observe (rowid : RowId) (observation inputs : Dict Var Val)
  | unobserve (rowid : RowId)
  | setHypers (hypers : Dict String ℝ)
  | setParams (params : Dict String ℝ)
  | clone

/-- The object after the call, whether or not the call raised.  `clone` replaces the object by
`from_metadata(to_metadata())` if that succeeds. -/
noncomputable def step (p : Prim) : Call → Prim
  | .observe r o i => (p.observe r o i).2
  | .unobserve r => (p.unobserve r).2
  | .setHypers h => (p.setHypers h).2
  | .setParams h => (p.setParams h).2
  | .clone => match Prim.fromMetadata p.toMetadata with
    | .ok q => q
    | .error _ => p

/-- The object after a list of calls. -/
noncomputable def run (p : Prim) (cs : List Call) : Prim := cs.foldl step p

/-- What the constructors return, for one output variable and any other arguments. -/
inductive Created : Prim → Prop
  | crp (o inputs hypers params) : Created (.crp (Crp.init [o] inputs hypers params))
  | categorical (o inputs hypers params k) :
      Created (.categorical (Categorical.init [o] inputs hypers params k))
  | bernoulli (o inputs hypers params) :
      Created (.bernoulli (Bernoulli.init [o] inputs hypers params))
  | normal {o inputs hypers params s} (h : Normal.init [o] inputs hypers params = .ok s) :
      Created (.normal s)
  | normalUC {o inputs hypers params s} (h : NormalUC.init [o] inputs hypers params = .ok s) :
      Created (.normalUC s)
  | poisson {o inputs hypers params s} (h : Poisson.init [o] inputs hypers params = .ok s) :
      Created (.poisson s)

/-- The positivity the classes require of their hyperparameters (and NormalUC of its variance;
Categorical also needs at least one category to be a distribution). -/
def LegalHypers : Prim → Prop
  | .crp c => 0 < c.alpha
  | .categorical c => 0 < c.alpha ∧ 1 ≤ c.k
  | .bernoulli c => 0 < c.alpha ∧ 0 < c.beta
  | .normal c => 0 < c.r ∧ 0 < c.s ∧ 0 < c.nu
  | .normalUC c => 0 < c.var
  | .poisson c => 0 < c.a ∧ 0 < c.b

/-- Reachable from a constructor call by any history. -/
def Reachable (p : Prim) : Prop := ∃ p₀ cs, Created p₀ ∧ run p₀ cs = p

/-- Reachable by any history from a constructor call with legal hyperparameters. -/
def LegallyReachable (p : Prim) : Prop :=
  ∃ p₀ cs, Created p₀ ∧ LegalHypers p₀ ∧ run p₀ cs = p

theorem LegallyReachable.reachable {p : Prim} (h : LegallyReachable p) : Reachable p := by
  obtain ⟨p₀, cs, hc, _, hr⟩ := h
  exact ⟨p₀, cs, hc, hr⟩

end Cgpm2.Spec
