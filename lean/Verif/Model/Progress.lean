import Verif.Py.Base

/-!
# src/progress.py

A kernel is a call without arguments acting on the state `σ` it closes over; it may raise.  The
clock is a stream of readings of `time.time()`.  `report_progress` (src/progress.py:9-14) only
prints and is left out.
-/

namespace Cgpm2.Progress

/-- The state a kernel acts on, and the clock readings still to come. -/
structure World (σ : Type) where
  state : σ
  clock : Nat → ℝ

/-- `time.time()` (external). -/
def World.time {σ : Type} : Py (World σ) ℝ := fun w =>
  (.ok (w.clock 0), { w with clock := fun i => w.clock (i + 1) })

/-- A call of a kernel.  The readings to come are arbitrary, so it may take any time. -/
def World.call {σ : Type} (k : Py σ Unit) : Py (World σ) Unit := fun w =>
  match k w.state with
  | (r, s) => (r, { w with state := s })

/-- `x / y` for floats. -/
noncomputable def floatDiv (x y : ℝ) : Except Err ℝ := open Classical in
  if y = 0 then .error .zeroDivision else .ok (x / y)

/-- `proportion_done` (src/progress.py:16-25).  `S` is a number of seconds, `N` an int. -/
noncomputable def proportionDone {σ : Type} (N : Option Int) (S : Option ℝ) (iters : Nat)
    (start : ℝ) : Py (World σ) ℝ := do
  let pSeconds ← match S with
    | none => (pure 0 : Py (World σ) ℝ)
    | some s => do
      let now ← World.time
      Py.lift (floatDiv (now - start) s)
  let pIters ← match N with
    | none => (pure 0 : Py (World σ) ℝ)
    | some n => Py.lift (floatDiv iters n)
  pure (max pIters pSeconds)

open Classical in
/-- The `for` loop of `transition_generic` (src/progress.py:35-41); the result says whether it ran
to its end (the `else` clause, src/progress.py:42-44) or was left by `break`. -/
noncomputable def sweep {σ : Type} (N : Option Int) (S : Option ℝ) (iters : Nat) (start : ℝ) :
    List (Py σ Unit) → Py (World σ) Bool
  | [] => pure true
  | kernel :: kernels => do
    let p ← proportionDone N S iters start
    if 1 ≤ p then pure false
    else do
      World.call kernel
      sweep N S iters start kernels

/-- The `while` loop of `transition_generic` (src/progress.py:34-45) from a given value of `iters`,
as a relation between the state before and the outcome, since it need not end. -/
inductive Loop {σ : Type} (N : Option Int) (S : Option ℝ) (start : ℝ) (kernels : List (Py σ Unit)) :
    Nat → World σ → Except Err Unit × World σ → Prop
  | empty {i w} (h : kernels = []) : Loop N S start kernels i w (.ok (), w)
  | leave {i w w'} (hk : kernels ≠ []) (h : sweep N S i start kernels w = (.ok false, w')) :
      Loop N S start kernels i w (.ok (), w')
  | again {i w w' r} (hk : kernels ≠ []) (h : sweep N S i start kernels w = (.ok true, w'))
      (hr : Loop N S start kernels (i + 1) w' r) : Loop N S start kernels i w r
  | raise {i w w' e} (hk : kernels ≠ []) (h : sweep N S i start kernels w = (.error e, w')) :
      Loop N S start kernels i w (.error e, w')

/-- `transition_generic` (src/progress.py:27-48): `TransitionGeneric kernels N S w r` says that the
call from `w` ends with the outcome `r`. -/
def TransitionGeneric {σ : Type} (kernels : List (Py σ Unit)) (N : Option Int) (S : Option ℝ)
    (w : World σ) (r : Except Err Unit × World σ) : Prop :=
  let N' := match N, S with
    | none, none => some 1
    | _, _ => N
  match World.time w with
  | (_, w') => Loop N' S (w.clock 0) kernels 0 w' r

end Cgpm2.Progress
