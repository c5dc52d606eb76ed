import Verif.Lemmas.EditAdd
import Verif.Lemmas.Walks

/-!
# The list of cluster variables matters only through the outputs (helpers)
-/

namespace Cgpm2
open Spec

variable {S : Type}

theorem primTab_Z {Z Z' : List Var} {p : Prim} (h : (primTab Z).Reg p)
    (hz : ∀ v ∈ p.outputs, v ∈ Z ↔ v ∈ Z') : (primTab Z').Reg p :=
  ⟨h.1, h.2.1, fun hk v hv => (hz v hv).1 (h.2.2.1 hk v hv),
    fun v hv hv' => h.2.2.2 v hv ((hz v hv).2 hv')⟩

theorem rowMixTab_Z {A : Type} {AI : Iface A} {I : Iface S} {MA : Sem A} {X : Prim → Nat → Prop}
    {R : Arr A S} {Z Z' : List Var} {T T' : Tab S} (hc : T.cell = T'.cell)
    (hp : T.present = T'.present)
    (hr : ∀ c, (∀ v ∈ I.outputs c, v ∈ Z ↔ v ∈ Z') → T.Reg c → T'.Reg c) {m : RowMix A}
    (hz : ∀ v ∈ m.rowDivide.outputs ++ AI.outputs m.array, v ∈ Z ↔ v ∈ Z')
    (h : MixReg AI I MA X R Z T m) : MixReg AI I MA X R Z' T' m where
  inv := h.inv
  inputs := h.inputs
  divides := h.divides
  x_eq := h.x_eq
  x_mem := (hz _ (by rw [h.out]; simp)).1 h.x_mem
  x_out := h.x_out
  inputsX := h.inputsX
  nodup := h.nodup
  comp := fun k c hk => ⟨hr c (fun v hv => hz v (List.mem_append_right _
    (by rw [← (h.comp k c hk).2]; exact hv))) (h.comp k c hk).1, (h.comp k c hk).2⟩
  data := h.data
  idx := h.idx
  books := by rw [← hp]; exact h.books
  fresh := fun r k c hk hn v => by rw [← hc]; exact h.fresh r k c hk hn v

theorem cellsZ (Z Z' : List Var) : (n : Nat) → (cgpmTab Z n).cell = (cgpmTab Z' n).cell ∧
    (cgpmTab Z n).present = (cgpmTab Z' n).present
  | 0 => ⟨rfl, rfl⟩
  | n + 1 => by
    obtain ⟨h1, h2⟩ := cellsZ Z Z' n
    constructor
    · funext c
      change (nodeTab (cgpmI n) (cgpmSem n) Z (cgpmTab Z n)).cell c =
        (nodeTab (cgpmI n) (cgpmSem n) Z' (cgpmTab Z' n)).cell c
      rcases c with p | p | a | a | m | m <;>
        simp only [nodeTab, productTab, finMixTab, flexMixTab, rowMixTab, h1] <;>
        first | rfl | (funext r v; unfold ProdTab.cell; rw [h1])
    · funext c
      change (nodeTab (cgpmI n) (cgpmSem n) Z (cgpmTab Z n)).present c =
        (nodeTab (cgpmI n) (cgpmSem n) Z' (cgpmTab Z' n)).present c
      rcases c with p | p | a | a | m | m <;>
        (simp only [nodeTab, productTab, finMixTab, flexMixTab, rowMixTab, h1]; try rfl)

theorem regZ {Z Z' : List Var} : (n : Nat) → (c : Cgpm n) →
    (∀ v ∈ (cgpmI n).outputs c, v ∈ Z ↔ v ∈ Z') → (cgpmTab Z n).Reg c → (cgpmTab Z' n).Reg c
  | 0, _, hz, h => primTab_Z h hz
  | n + 1, c, hz, h => by
    obtain ⟨h1, h2⟩ := cellsZ Z Z' n
    rcases c with p | p | a | a | m | m
    · exact primTab_Z h hz
    · refine ⟨fun c hc => regZ n c (fun v hv => hz v ?_) (h.1 c hc), h.2⟩
      exact List.mem_flatMap.2 ⟨c, hc, hv⟩
    · exact h.elim
    · exact h.elim
    · exact rowMixTab_Z h1 h2 (regZ n) hz h
    · exact rowMixTab_Z h1 h2 (regZ n) hz h

/-- The primitives of a model that keeps a table keep a table. -/
theorem reg_prims {Z : List Var} : (n : Nat) → (c : Cgpm n) → (cgpmTab Z n).Reg c →
    ∀ p ∈ primsIn n c, p.Good ∧ p.inputs = [] ∧ (p.kind = .crp → ∀ v ∈ p.outputs, v ∈ Z)
  | 0, c, h, p, hp => by
    have hp : p ∈ [(c : Prim)] := hp
    rw [List.mem_singleton.1 hp]
    exact ⟨h.1, h.2.1, h.2.2.1⟩
  | n + 1, c, h, p, hp => by
    rcases c with q | q | a | a | m | m
    · have hp : p ∈ [q] := hp
      rw [List.mem_singleton.1 hp]
      exact ⟨h.1, h.2.1, h.2.2.1⟩
    · obtain ⟨c, hc, hp⟩ := List.mem_flatMap.1 (show p ∈ q.cgpms.flatMap (primsIn n) from hp)
      exact reg_prims n c (h.1 c hc) p hp
    · exact h.elim
    · exact h.elim
    · have h : (finMixTab (cgpmI n) (cgpmSem n) Z (cgpmTab Z n)).Reg m := h
      have hp : p ∈ m.rowDivide :: m.array.cgpms.flatMap (primsIn n) := hp
      rcases List.mem_cons.1 hp with rfl | hp
      · exact ⟨h.inv.1, h.inputs, fun _ v hv => by
          rw [h.out, List.mem_singleton] at hv
          rw [hv]; exact h.x_mem⟩
      · obtain ⟨c, hc, hp⟩ := List.mem_flatMap.1 hp
        exact reg_prims n c (mixReg_fin_mem h hc).1 p hp
    · have h : (flexMixTab (cgpmI n) (cgpmSem n) Z (cgpmTab Z n)).Reg m := h
      have hp : p ∈ m.rowDivide :: ((Dict.values m.array.cgpms).flatMap (primsIn n) ++
        primsIn n m.array.base) := hp
      rcases List.mem_cons.1 hp with rfl | hp
      · exact ⟨h.inv.1, h.inputs, fun _ v hv => by
          rw [h.out, List.mem_singleton] at hv
          rw [hv]; exact h.x_mem⟩
      · rcases List.mem_append.1 hp with hp | hp
        · obtain ⟨c, hc, hp⟩ := List.mem_flatMap.1 hp
          exact reg_prims n c (mixReg_mem h hc).1 p hp
        · exact reg_prims n _ (mixReg_base (cgpmLaws n) (cgpmTLaws Z n) h) p hp

/-- A primitive without data. -/
theorem prim_reg_of {Z : List Var} {p : Prim}
    (h : p.Good ∧ p.inputs = [] ∧ (p.kind = .crp → ∀ v ∈ p.outputs, v ∈ Z)) (hd : p.data = []) :
    (primTab Z).Reg p :=
  ⟨h.1, h.2.1, h.2.2, fun v _ _ r x hx => by rw [hd] at hx; cases hx⟩

end Cgpm2
