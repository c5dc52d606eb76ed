import Mathlib.Data.Rat.Floor
import Mathlib.Algebra.Order.Archimedean.Real.Basic
import Mathlib.Data.List.Basic

/-!
# Python runtime fragment

Exceptions, mutable objects, dictionaries and values as used by /repo/src.
Nothing in this file models a function of the repository itself; it is the
vocabulary the model is written in.
-/

namespace Cgpm2

/-- Variable identifiers (`outputs`, `inputs` are lists of ints, src/icgpm.py:18-27). -/
abbrev Var := Int

/-- Row identifiers: an int, or `None` for a hypothetical row (src/icgpm.py). -/
abbrev RowId := Option Int

/-- The exception classes that can be raised. -/
inductive Err
  | valueError | assertionError | keyError | indexError | typeError
  | attributeError | zeroDivision | notImplemented | stopIteration
  deriving DecidableEq, Repr

/-- A data value: a missing value (`float('nan')`) or a finite number.  Every finite
double is a rational.  Infinite data values are not modelled. -/
inductive Val
  | nan
  | num (q : ℚ)
  deriving DecidableEq, Repr

instance : Inhabited Val := ⟨.nan⟩

/-- `math.isnan`. -/
def Val.isNan : Val → Bool
  | .nan => true
  | .num _ => false

/-- `x % 1 == 0` for a finite number. -/
def isWhole (q : ℚ) : Bool := q.den == 1

/-- `int(x)` for a finite number: truncation towards zero. -/
def truncate (q : ℚ) : Int := Int.tdiv q.num q.den

/-- `int(x)`: truncation; `int(float('nan'))` raises ValueError. -/
def pyInt : Val → Except Err Int
  | .nan => .error .valueError
  | .num q => .ok (truncate q)

/-! ## Methods on mutable objects -/

/-- A Python computation on a mutable object of type `S`: the state survives an
exception. -/
def Py (S α : Type) : Type := S → Except Err α × S

namespace Py
variable {S α β : Type}

def pure (a : α) : Py S α := fun s => (.ok a, s)

def bind (m : Py S α) (f : α → Py S β) : Py S β := fun s =>
  match m s with
  | (.ok a, s') => f a s'
  | (.error e, s') => (.error e, s')

instance : Monad (Py S) where
  pure := Py.pure
  bind := Py.bind

/-- Read the object. -/
def get : Py S S := fun s => (.ok s, s)
/-- Assign to attributes of the object. -/
def modify (f : S → S) : Py S Unit := fun s => (.ok (), f s)
/-- `raise`. -/
def throw (e : Err) : Py S α := fun s => (.error e, s)
/-- A computation that does not touch the object. -/
def lift (x : Except Err α) : Py S α := fun s => (x, s)
/-- `assert p`. -/
def assert (p : Prop) [Decidable p] : Py S Unit := fun s =>
  if p then (.ok (), s) else (.error .assertionError, s)

@[simp] theorem pure_apply (a : α) (s : S) : (Pure.pure a : Py S α) s = (.ok a, s) := rfl
theorem bind_apply (m : Py S α) (f : α → Py S β) (s : S) :
    (m >>= f) s = match m s with
      | (.ok a, s') => f a s'
      | (.error e, s') => (.error e, s') := rfl
@[simp] theorem get_apply (s : S) : (get : Py S S) s = (.ok s, s) := rfl
@[simp] theorem modify_apply (f : S → S) (s : S) : modify f s = (.ok (), f s) := rfl
@[simp] theorem throw_apply (e : Err) (s : S) : (throw e : Py S α) s = (.error e, s) := rfl
@[simp] theorem lift_apply (x : Except Err α) (s : S) : lift x s = (x, s) := rfl
theorem assert_apply (p : Prop) [Decidable p] (s : S) :
    assert p s = if p then (.ok (), s) else (.error .assertionError, s) := rfl

end Py

/-! ## Dictionaries -/

/-- Python dictionaries in insertion order. -/
abbrev Dict (K V : Type) := List (K × V)

namespace Dict
variable {K V : Type} [DecidableEq K]

/-- `d.get(k)`. -/
def get? : Dict K V → K → Option V
  | [], _ => none
  | (k', v) :: d, k => if k' = k then some v else get? d k

/-- `k in d`. -/
def has (d : Dict K V) (k : K) : Bool := (get? d k).isSome

/-- `d[k] = v`; an existing key keeps its position. -/
def set : Dict K V → K → V → Dict K V
  | [], k, v => [(k, v)]
  | (k', v') :: d, k, v => if k' = k then (k, v) :: d else (k', v') :: set d k v

/-- `del d[k]` (nothing if absent; callers check). -/
def del : Dict K V → K → Dict K V
  | [], _ => []
  | (k', v') :: d, k => if k' = k then d else (k', v') :: del d k

/-- `d.keys()`. -/
def keys (d : Dict K V) : List K := d.map Prod.fst

/-- `d.values()`. -/
def values (d : Dict K V) : List V := d.map Prod.snd

/-- `d.update(e)`. -/
def update (d e : Dict K V) : Dict K V := e.foldl (fun acc kv => set acc kv.1 kv.2) d

/-- `d[k]`, raising KeyError. -/
def getItem (d : Dict K V) (k : K) : Except Err V :=
  match get? d k with
  | some v => .ok v
  | none => .error .keyError

end Dict

/-- `cgpm.utils.general.merged(d, e)` (external): later entries win. -/
def merged {K V : Type} [DecidableEq K] (d e : Dict K V) : Dict K V :=
  Dict.update (Dict.update [] d) e

/-- `cgpm.utils.general.mergedl(ds)` (external): later entries win. -/
def mergedl {K V : Type} [DecidableEq K] (ds : List (Dict K V)) : Dict K V :=
  ds.foldl Dict.update []

/-- `cgpm.utils.general.get_intersection(left, right)` for a dict `right` (external):
the entries of `right` whose key is in `left`; `None` counts as `{}`. -/
def getIntersection {V : Type} (left : List Var) (right : Dict Var V) : Dict Var V :=
  right.filter (fun kv => decide (kv.1 ∈ left))

/-- `cgpm.utils.general.get_intersection(left, right)` for a list `right` (external). -/
def getIntersectionL (left : List Var) (right : List Var) : List Var :=
  right.filter (fun v => decide (v ∈ left))

/-! ## Randomness -/

/-- One draw of a random state: a real number whose fractional part is the uniform variate
`rng.random_sample()`, and the rational returned if the draw is from a continuous or
infinite distribution. -/
structure Draw where
  u : ℝ
  x : ℚ

/-- A random state: the stream of its future draws.  Theorems quantify over all streams. -/
abbrev Rng := Nat → Draw

/-- Consume one entry of the stream. -/
def Rng.next (r : Rng) : Draw × Rng := (r 0, fun n => r (n + 1))

/-- `rng.random_sample()`: a number in `[0, 1)`. -/
noncomputable def Rng.uniform (r : Rng) : ℝ × Rng := (Int.fract (r 0).u, r.next.2)

/-- The value of a draw from a distribution whose law is not modelled. -/
def Rng.draw (r : Rng) : ℚ × Rng := ((r 0).x, r.next.2)

/-- What `simulate` returns: one sample (`N is None`) or a list of samples. -/
inductive SimOut
  | one (s : Dict Var Val)
  | many (l : List (Dict Var Val))
  deriving DecidableEq, Repr

end Cgpm2
