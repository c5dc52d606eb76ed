import Verif.Lemmas.Kernels
import Verif.Lemmas.ConcreteExport
import Verif.Lemmas.Sweep

/-!
# Concrete CrossCats for runs of the kernels (helpers)
-/

namespace Cgpm2.Concrete
open Spec Props Views

noncomputable def berWith (data : Dict RowId Val) (N : Int) (s : Int) : Prim :=
  .bernoulli { Bernoulli.init [1] [] [] [] with data := data, N := N, xSum := s }

noncomputable def toss5 (b : Bool) : FlexMix (Node Prim) :=
  if b then
    ⟨.crp { Crp.init [5] [] [] [] with data := [(some 0, 0), (some 1, 0)], N := 2, counts := [(0, 2)] },
     { FlexArray.init (.product ⟨[berCol 1]⟩) 5 with
        cgpms := [(.num 0, .product ⟨[berWith [(some 0, .num 1), (some 1, .nan)] 1 1]⟩)],
        rowidToIndex := [(some 0, .num 0), (some 1, .num 0)] },
     [(some 0, .num 0), (some 1, .num 0)]⟩
  else
    ⟨.crp { Crp.init [5] [] [] [] with data := [(some 0, 0)], N := 1, counts := [(0, 1)] },
     { FlexArray.init (.product ⟨[berCol 1]⟩) 5 with
        cgpms := [(.num 0, .product ⟨[berWith [(some 0, .num 1)] 1 1]⟩)], rowidToIndex := [(some 0, .num 0)] },
     [(some 0, .num 0)]⟩

/-- A Bernoulli column with two rows, the second of them missing. -/
noncomputable def tosses : Crosscat := ⟨[(.flexMix (toss5 true) : Node (Node Prim))]⟩

theorem toss_obs0 (g : Rng) : (cgpmI 3).observe (some 0) [(5, .num 0), (1, .num 1)] [] (whole coins, g) =
    (.ok (), (whole ⟨[(.flexMix (toss5 false) : Node (Node Prim))]⟩, g)) := rfl
theorem toss_obs1 (g : Rng) : (cgpmI 3).observe (some 1) [(5, .num 0), (1, .nan)] []
    (whole ⟨[(.flexMix (toss5 false) : Node (Node Prim))]⟩, g) = (.ok (), (whole tosses, g)) := rfl

theorem tosses_tidy : Tidy [5] 3 (whole tosses) :=
  .observe (.observe coins_tidy (mono_whole (a := 0) rfl) (toss_obs0 fun _ => ⟨0, 0⟩))
    (mono_whole (a := 0) rfl) (toss_obs1 fun _ => ⟨0, 0⟩)

theorem tosses_crosscat : IsCrosscat tosses := by
  intro v hv
  have hv : v ∈ [(.flexMix (toss5 true) : Node (Node Prim))] := hv
  rw [List.mem_singleton.1 hv]
  exact ⟨toss5 true, ⟨[berCol 1]⟩, rfl, rfl, rfl⟩

theorem tosses_columns : columns tosses = [1] := rfl

theorem tosses_plain : ∀ v ∈ columns tosses, v ∉ [5] := by
  rw [tosses_columns]; simp

theorem tosses_cc : CC [5] tosses := cc_of_tidy tosses_tidy tosses_crosscat tosses_plain

theorem tosses_ofColumn : OfColumn tosses 1 (berCol 1) := ⟨by
  change _ ∈ ([.crp { Crp.init [5] [] [] [] with data := [(some 0, 0), (some 1, 0)], N := 2, counts := [(0, 2)] },
    berWith [(some 0, .num 1), (some 1, .nan)] 1 1, berCol 1] : List Prim)
  simp, rfl⟩

theorem tosses_cell (g : Rng) (r : RowId) (v : Var) : heldCell (cgpmI 3) (whole tosses) g r v =
    (cgpmTab [5] 3).cell (whole tosses) r v := heldCell_eq (cgpmTLaws [5] 3) tosses_cc.reg _ _ _

theorem mono_cell (g : Rng) (r : RowId) (v : Var) : heldCell (cgpmI 3) (whole mono) g r v =
    (cgpmTab [5] 3).cell (whole mono) r v := heldCell_eq (cgpmTLaws [5] 3) mono_cc.reg _ _ _

theorem mono_ready : Ready mono where
  missing o ho p hp hk := by
    rcases mono_supported o ho p hp with h | h <;> rw [h] at hk <;> rcases hk with hk | hk <;> cases hk
  anonymous g v := by
    rw [mono_cell]
    refine ProdTab.cell_none_iff.2 fun w hw => ?_
    have hw : w ∈ [(.flexMix mono5 : Node (Node Prim))] := hw
    rw [List.mem_singleton.1 hw]
    change (if v = 5 then none else none) = none
    rw [ite_self]

theorem mono_among : RowsAmong (· ∈ [some 0, some 1]) mono := fun g r v h => rowsAmong_keys mono_cc g r v h

theorem mono_collapsed : Collapsed mono := fun o ho p hp hk => by
  rcases mono_supported o ho p hp with h | h <;> rw [h] at hk <;> cases hk

end Cgpm2.Concrete
