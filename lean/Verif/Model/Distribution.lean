import Verif.Py.Fl

/-!
# src/distribution.py, and the pieces shared by all primitives
-/

namespace Cgpm2

/-- `DistributionCGPM.observe` (src/distribution.py:33-37): `rowid in self.data` raises
ValueError (TypeError for `None`, which the `%d` of the message rejects), then
`assert not inputs`, then `assert observation.keys() == self.outputs`. -/
def observeGuard (rowid : RowId) (held : Bool) (outputs : List Var)
    (observation inputs : Dict Var Val) : Except Err Unit :=
  if held then .error (if rowid = none then .typeError else .valueError)
  else if inputs ≠ [] then .error .assertionError
  else if Dict.keys observation ≠ outputs then .error .assertionError
  else .ok ()

/-- `DistributionCGPM.unobserve` (src/distribution.py:39-41). -/
def unobserveGuard (held : Bool) : Except Err Unit :=
  if held then .ok () else .error .valueError

/-- `DistributionCGPM.logpdf` (src/distribution.py:43-47). -/
def logpdfGuard (held : Bool) (outputs : List Var) (targets constraints inputs : Dict Var Val) :
    Except Err Unit :=
  if held then .error .assertionError
  else if inputs ≠ [] then .error .assertionError
  else if constraints ≠ [] then .error .assertionError
  else if Dict.keys targets ≠ outputs then .error .assertionError
  else .ok ()

/-- `DistributionCGPM.simulate` (src/distribution.py:49-52). -/
def simulateGuard (outputs : List Var) (targets : List Var) (constraints inputs : Dict Var Val) :
    Except Err Unit :=
  if constraints ≠ [] then .error .assertionError
  else if inputs ≠ [] then .error .assertionError
  else if targets ≠ outputs then .error .assertionError
  else .ok ()

/-- `self.outputs[0]`. -/
def firstOutput : List Var → Except Err Var
  | [] => .error .indexError
  | o :: _ => .ok o

/-- The `@simulate_many` decorator of `cgpm.utils.general` (external): `N=None` is one
call, otherwise a list of `N` calls. -/
def simulateMany (one : Py Rng (Dict Var Val)) : Option Nat → Py Rng SimOut
  | none => do
    let s ← one
    pure (.one s)
  | some n => do
    let l ← go n
    pure (.many l)
where
  go : Nat → Py Rng (List (Dict Var Val))
    | 0 => pure []
    | n + 1 => do
      let s ← one
      let l ← go n
      pure (s :: l)

/-- `numpy.linspace(a, b, n)` (external). -/
noncomputable def linspace (a b : ℝ) (n : Nat) : List ℝ :=
  (List.range n).map fun i : Nat => a + (i : ℝ) * ((b - a) / ((n : ℝ) - 1))

/-- `cgpm.utils.general.log_linspace(a, b, n)` (external): evenly spaced in the logarithm. -/
noncomputable def logLinspace (a b : ℝ) (n : Nat) : List ℝ :=
  (linspace (Real.log a) (Real.log b) n).map Real.exp

/-- `sorted` on integers. -/
def pySorted (l : List Int) : List Int := l.insertionSort (· ≤ ·)

/-- `max` of a non-empty list given by head and tail. -/
def pyMax (k : Int) (ks : List Int) : Int := ks.foldl max k

end Cgpm2
