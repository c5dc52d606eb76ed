import Verif.Model.Iface

/-!
# Loops over components (Python list comprehensions whose body calls a method)
-/

namespace Cgpm2
namespace Py

/-- `[f(x) for x in xs]` where `f` may change the object; the first exception ends it. -/
def mapL {S α β : Type} (f : α → Py S β) : List α → Py S (List β)
  | [] => Pure.pure []
  | x :: xs => do
    let y ← f x
    let ys ← mapL f xs
    Pure.pure (y :: ys)

/-- `[m(c) for c in components]`, `m` changing the component it is called on and the random
state `T`; the first exception ends it and leaves the later components untouched. -/
def each {S T α : Type} (m : Py (S × T) α) : Py (List S × T) (List α) := fun st =>
  go st.1 st.2
where
  go : List S → T → Except Err (List α) × (List S × T)
    | [], g => (.ok [], ([], g))
    | s :: ss, g =>
      match m (s, g) with
      | (.error e, (s', g')) => (.error e, (s' :: ss, g'))
      | (.ok a, (s', g')) =>
        match go ss g' with
        | (.error e, (ss', g'')) => (.error e, (s' :: ss', g''))
        | (.ok as, (ss', g'')) => (.ok (a :: as), (s' :: ss', g''))

/-- `try: return m() except Exception: return d`. -/
def catchAll {S α : Type} (m : Py S α) (d : α) : Py S α := fun s =>
  match m s with
  | (.ok a, s') => (.ok a, s')
  | (.error _, s') => (.ok d, s')

/-- Run a method on an attribute: `lens`-like access by `get` and `set`. -/
def onAttr {S A T α : Type} (get : S → A) (set : S → A → S) (m : Py (A × T) α) :
    Py (S × T) α := fun st =>
  match m (get st.1, st.2) with
  | (r, (a', t')) => (r, (set st.1 a', t'))

/-- A method of an object seen as an object of a wider class. -/
def inside {A S T α : Type} (f : A → S) (m : Py (A × T) α) (st : A × T) :
    Except Err α × (S × T) :=
  match m st with
  | (r, (a', t')) => (r, (f a', t'))

end Py
end Cgpm2
