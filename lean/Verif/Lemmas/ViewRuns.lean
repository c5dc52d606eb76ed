import Verif.Lemmas.ViewSteps

/-!
# Runs of the moves of one column, from the runs of their steps (helpers)
-/

namespace Cgpm2.Views
open Spec

theorem setExisting_run {x x1 x2 x3 x4 : Crosscat} {o0 o1 : Var} {g g' : Rng} {i0 i1 : Nat}
    {v0 v0' v1 v1' p : View} {b : List Prim} {d : List (List (RowId × Dict Var Val))}
    (h0 : viewIndex x [o0] = .ok i0) (h1 : viewIndex x [o1] = .ok i1) (hne : i0 ≠ i1)
    (hv0 : item x.cgpms i0 = .ok v0) (hr : removeCgpm 2 v0 o0 = .ok v0')
    (hv1 : x.cgpms[i1]? = some v1) (hb : basesOf x [o0] = .ok (b, d))
    (hp : proposalExisting b d (v1, g) = (.ok p, (v1', g')))
    (hx1 : dropView ⟨x.cgpms.set i1 v1'⟩ v0 = .ok x1) (hx2 : restore x1 v0' = .ok x2)
    (hx3 : dropView x2 v1 = .ok x3) (hx4 : putView x3 p = .ok x4) :
    setExisting o0 o1 (x, g) = (.ok x4, (⟨x.cgpms.set i1 v1'⟩, g')) := by
  unfold setExisting
  rw [Py.get_bind]
  dsimp only
  rw [h0, Py.lift_bind]
  dsimp only
  rw [h1, Py.lift_bind]
  dsimp only
  rw [if_neg hne, hv0, Py.lift_bind]
  dsimp only
  rw [hr, Py.lift_bind]
  dsimp only
  rw [show item x.cgpms i1 = .ok v1 by unfold item; rw [hv1], Py.lift_bind]
  dsimp only
  rw [hb, Py.lift_bind]
  dsimp only
  rw [Py.bind_apply]
  have : onView i1 (proposalExisting b d) (x, g) = (.ok p, (⟨x.cgpms.set i1 v1'⟩, g')) := by
    unfold onView
    dsimp only
    rw [hv1]
    dsimp only
    rw [hp]
  rw [this]
  dsimp only
  rw [Py.get_bind]
  dsimp only
  rw [hx1, Py.lift_bind]
  dsimp only
  rw [hx2, Py.lift_bind]
  dsimp only
  rw [hx3, Py.lift_bind]
  dsimp only
  rw [hx4]
  rfl

theorem setSingleton_run {x x1 x2 x3 : Crosscat} {o0 : Var} {g g' : Rng} {i0 : Nat}
    {v0 v0' p : View} {b : List Prim} {d : List (List (RowId × Dict Var Val))}
    (h0 : viewIndex x [o0] = .ok i0)
    (hv0 : item x.cgpms i0 = .ok v0) (hr : removeCgpm 2 v0 o0 = .ok v0')
    (hb : basesOf x [o0] = .ok (b, d)) (hp : proposalSingleton b d g = (.ok p, g'))
    (hx1 : dropView x v0 = .ok x1) (hx2 : restore x1 v0' = .ok x2)
    (hx3 : putView x2 p = .ok x3) :
    setSingleton o0 (x, g) = (.ok x3, (x, g')) := by
  unfold setSingleton
  rw [Py.get_bind]
  dsimp only
  rw [h0, Py.lift_bind]
  dsimp only
  rw [hv0, Py.lift_bind]
  dsimp only
  rw [hr, Py.lift_bind]
  dsimp only
  rw [hb, Py.lift_bind]
  dsimp only
  rw [Py.bind_apply]
  simp only [Py.onSnd, hp]
  rw [hx1, Py.lift_bind]
  dsimp only
  rw [hx2, Py.lift_bind]
  dsimp only
  rw [hx3]
  rfl

end Cgpm2.Views
