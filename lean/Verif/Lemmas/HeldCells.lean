import Verif.Lemmas.EditAdd
import Verif.Lemmas.BuiltLaws
import Verif.Spec.Table

/-!
# What `unobserve` hands back (helpers)
-/

namespace Cgpm2
open Spec

section
variable {S : Type} {I : Iface S} {M : Sem S} {Z : List Var} {T : Tab S}

/-- What `unobserve` would hand back is the cell of the table. -/
theorem heldCell_eq (K : TLaws I M Z T) {s : S} (h : T.Reg s) (g : Rng) (r : RowId) (v : Var) :
    heldCell I s g r v = T.cell s r v := by
  unfold heldCell
  by_cases hp : T.present s r
  · obtain ⟨ob, s', h1, -, -, h2, -⟩ := K.unobserve s r g h hp
    rw [h1]
    exact h2 v
  · obtain ⟨e, he⟩ := K.unobserve_absent s r g h hp
    rw [he]
    by_contra hn
    exact hp (K.present_cell s r v h (Ne.symm hn))

theorem holdsNothing_iff (K : TLaws I M Z T) {s : S} (h : T.Reg s) (r : RowId) :
    HoldsNothing I s r ↔ T.Fresh s r := by
  unfold HoldsNothing Tab.Fresh
  simp only [heldCell_eq K h]
  exact ⟨fun h v => h (fun _ => ⟨0, 0⟩) v, fun h _ v => h v⟩

theorem reg_unobserve (K : TLaws I M Z T) {s : S} (h : T.Reg s) (r : RowId) (g : Rng) :
    T.Reg (I.unobserve r (s, g)).2.1 := by
  by_cases hp : T.present s r
  · obtain ⟨ob, s', h1, h2, -⟩ := K.unobserve s r g h hp
    rw [h1]; exact h2
  · obtain ⟨e, he⟩ := K.unobserve_absent s r g h hp
    rw [he]; exact h

theorem reg_call (L : Laws I M) (K : TLaws I M Z T) {s : S} (h : T.Reg s) {a : Ask}
    (ha : a.NotObserve) (g : Rng) : T.Reg (ask I a (s, g)).2.1 := by
  cases a with
  | observe r o i => exact ha.elim
  | unobserve r => exact reg_unobserve K h r g
  | rebuild =>
    have h1 : I.fromMetadata (I.toMetadata s) = .ok (M.strip s) := L.clone s (K.inv _ h)
    simp only [ask, h1]
    exact K.reg_E _ _ (L.strip _ (K.inv _ h)) h
  | logpdf r t c i => exact K.reg_E _ _ (ask_query_E L (a := .logpdf r t c i) trivial (K.inv _ h) g) h
  | simulate r t c i N =>
    exact K.reg_E _ _ (ask_query_E L (a := .simulate r t c i N) trivial (K.inv _ h) g) h
  | logpdfScore => exact h
  | outputs => exact h
  | inputs => exact h

end

end Cgpm2
