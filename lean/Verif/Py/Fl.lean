import Mathlib.Analysis.SpecialFunctions.Log.Basic
import Mathlib.Analysis.SpecialFunctions.Gamma.Basic
import Verif.Py.Base

/-!
# Log-probabilities and numeric primitives

Real arithmetic is exact; `nan` and infinities are explicit.
-/

namespace Cgpm2

/-- A Python float as returned by `logpdf`: exact reals plus the IEEE specials. -/
inductive Fl
  | nan | ninf | pinf
  | fin (r : ℝ)

namespace Fl

/-- IEEE addition. -/
noncomputable def add : Fl → Fl → Fl
  | .nan, _ => .nan
  | _, .nan => .nan
  | .ninf, .pinf => .nan
  | .pinf, .ninf => .nan
  | .ninf, _ => .ninf
  | _, .ninf => .ninf
  | .pinf, _ => .pinf
  | _, .pinf => .pinf
  | .fin a, .fin b => .fin (a + b)

noncomputable def neg : Fl → Fl
  | .nan => .nan
  | .ninf => .pinf
  | .pinf => .ninf
  | .fin a => .fin (-a)

noncomputable instance : Add Fl := ⟨add⟩
noncomputable instance : Neg Fl := ⟨neg⟩
noncomputable instance : Sub Fl := ⟨fun a b => a + -b⟩
noncomputable instance : Zero Fl := ⟨.fin 0⟩

/-- Python's `sum(l)`, starting from the integer 0. -/
noncomputable def sum (l : List Fl) : Fl := l.foldl (· + ·) 0

/-- `x` is a log-probability or log-density: `-inf` or finite. -/
def IsLogP : Fl → Prop
  | .ninf => True
  | .fin _ => True
  | _ => False

/-- `exp x` for a log-probability (`exp (-inf) = 0`); the value on `nan` and `+inf` is a
convention, and every statement using `exp` says that its argument is a log-probability. -/
noncomputable def exp : Fl → ℝ
  | .fin r => Real.exp r
  | _ => 0

/-- `numpy.log` of a non-negative real: `-inf` at zero. -/
noncomputable def ofProb (p : ℝ) : Fl := if p = 0 then .ninf else .fin (Real.log p)

/-- `cgpm.utils.general.logsumexp` (external), for a list free of `nan` and `+inf`;
`nan` otherwise.  (An empty list raises in numpy and is never passed.) -/
noncomputable def logsumexp (l : List Fl) : Fl :=
  if l.all (fun x => match x with | .ninf => true | .fin _ => true | _ => false)
  then ofProb (l.map exp).sum else .nan

/-- `cgpm.utils.general.log_normalize` (external): subtract the logsumexp. -/
noncomputable def logNormalize (l : List Fl) : List Fl := l.map (· - logsumexp l)

end Fl

/-- `math.log(x)`: raises ValueError ("math domain error") for `x <= 0`. -/
noncomputable def pyLog (x : ℝ) : Except Err ℝ :=
  open Classical in if 0 < x then .ok (Real.log x) else .error .valueError

/-- `scipy.special.gammaln` and `math.lgamma`: `log |Γ x|` away from the poles
`0, -1, -2, ...`; only applied to positive arguments on reachable states. -/
noncomputable def gammaln (x : ℝ) : ℝ := Real.log (Real.Gamma x)

/-- `math.lgamma(x)`.  Python raises at the poles `0, -1, -2, ...`; the model raises for every
`x <= 0`, an argument that is never passed on reachable states. -/
noncomputable def pyLgamma (x : ℝ) : Except Err ℝ :=
  open Classical in if 0 < x then .ok (gammaln x) else .error .valueError

/-- `scipy.special.betaln`. -/
noncomputable def betaln (a b : ℝ) : ℝ := gammaln a + gammaln b - gammaln (a + b)

open Classical in
/-- Inverse of the cumulative sums: the first index `i` with `u < w_0 + ... + w_i`
(`cdf.searchsorted(u, side='right')`). -/
noncomputable def invCdf : List ℝ → ℝ → Nat
  | [], _ => 0
  | w :: ws, u => if u < w then 0 else invCdf ws (u - w) + 1

open Classical in
/-- `cgpm.utils.general.pflip(p, array, rng)` (external): index of the drawn entry.  The weights
are normalised and handed to `rng.choice`, which inverts their cumulative sums at one uniform
variate; here the variate is scaled by the total instead.  A negative weight, or no positive
weight, is an error.  A single entry is returned without looking at its weight. -/
noncomputable def pflipIdx (ps : List ℝ) : Py Rng Nat := fun rng =>
  match ps with
  | [] => (.error .valueError, rng)
  | [_] => (.ok 0, rng)
  | _ =>
    if (∀ p ∈ ps, 0 ≤ p) ∧ 0 < ps.sum then
      let (u, rng') := rng.uniform
      (.ok (invCdf ps (u * ps.sum)), rng')
    else (.error .valueError, rng)

/-- `cgpm.utils.general.log_pflip(logps, array, rng)` (external): `pflip` on
`exp (log_normalize logps)`; a `nan` or `+inf` entry makes every weight `nan`, which
`rng.choice` rejects.  Normalising only rescales the weights, so it is left to `pflip`.
A single entry is returned without looking at its weight. -/
noncomputable def logPflipIdx (logps : List Fl) : Py Rng Nat := fun rng =>
  match logps with
  | [] => (.error .valueError, rng)
  | [_] => (.ok 0, rng)
  | _ =>
    if logps.all (fun x => match x with | .ninf => true | .fin _ => true | _ => false) then
      pflipIdx (logps.map Fl.exp) rng
    else (.error .valueError, rng)

end Cgpm2
