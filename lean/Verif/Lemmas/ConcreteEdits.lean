import Verif.Lemmas.ConcretePane
import Verif.Lemmas.ConcreteCrosscat
import Verif.Lemmas.Walks
import Verif.Lemmas.TidyLaws

/-!
# Concrete models with columns added and taken out (helpers)
-/

namespace Cgpm2.Concrete
open Spec Props

/-- An empty column 2. -/
noncomputable def extra : Prim := .bernoulli (Bernoulli.init [2] [] [] [])

theorem extra_tidy : Tidy [5] 0 (extra : Prim) :=
  .prim0 ⟨_, [], .bernoulli .., by simp [LegalHypers, Bernoulli.init, Dict.get?], rfl⟩ rfl
    (by simp [extra, Prim.outputs, Bernoulli.init, Prim.kind])

theorem extra_empty (r : RowId) : HoldsNothing (cgpmI 0) (extra : Prim) r := by
  intro g v
  simp [heldCell, extra, cgpmI, primI]
  rfl

/-- The view `pane2` with that column. -/
noncomputable def wideTile (c : Node Prim) : Node Prim :=
  match c with
  | .product p => .product ⟨p.cgpms ++ [extra]⟩
  | c => c

noncomputable def wide : FlexMix (Node Prim) :=
  ⟨.crp { Crp.init [5] [] [] [] with data := [(some 0, 0), (some 1, 1), (some 2, 0)], N := 3, counts := [(0, 2), (1, 1)] },
   { FlexArray.init (wideTile (.product tile)) 5 with
      cgpms := [(.num 0, wideTile (tileOf [(0, 2), (2, 2)])), (.num 1, wideTile (tileOf [(1, 1)]))],
      rowidToIndex := [(some 0, .num 0), (some 1, .num 1), (some 2, .num 0)] },
   [(some 0, .num 0), (some 1, .num 1), (some 2, .num 0)]⟩

theorem wide_tidy : Tidy [5] 2 (.flexMix wide : Node (Node Prim)) :=
  .add pane2_tidy extra_tidy extra_empty trivial
    (by
      rw [show (cgpmI 2).outputs (.flexMix pane2 : Node (Node Prim)) = [5, 1] from rfl,
        show extra.outputs = [2] from rfl]
      simp) rfl

theorem wide_removable : Removable 2 (.flexMix wide : Node (Node Prim)) 1 := by
  refine ⟨by simp [wide, Prim.outputs, Crp.init], ?_⟩
  exact ⟨extra, List.mem_append_right _ (List.mem_singleton.2 rfl), by
    rw [show (cgpmI 0).outputs extra = [2] from rfl]; simp⟩

/-- Columns 1 and 2, their rows divided by a coin. -/
noncomputable def pair : Product Prim := ⟨[.categorical (Categorical.init [1] [] [] [] 3), extra]⟩
noncomputable def pairTile : Node Prim := .product pair
noncomputable def coin : FinMix (Node Prim) :=
  ⟨.bernoulli (Bernoulli.init [6] [] [] []), ⟨[pairTile, pairTile], 6, []⟩, []⟩

/-- Row 0 is observed in cluster 0. -/
noncomputable def coin0 : FinMix (Node Prim) :=
  ⟨.bernoulli { Bernoulli.init [6] [] [] [] with data := [(some 0, .num 0)], N := 1 },
    ⟨[.product ⟨[.categorical { Categorical.init [1] [] [] [] 3 with
        data := [(some 0, .num 2)], N := 1, counts := [0, 0, 1] }, extra]⟩, pairTile], 6,
      [(some 0, .num 0)]⟩, [(some 0, .num 0)]⟩

theorem coin0_observe (g : Rng) : (cgpmI 2).observe (some 0) [(6, .num 0), (1, .num 2)] []
    ((.finMix coin : Node (Node Prim)), g) = (.ok (), ((.finMix coin0 : Node (Node Prim)), g)) := rfl

theorem cat1_tidy' : Tidy [6] 0 (.categorical (Categorical.init [1] [] [] [] 3) : Prim) :=
  .prim0 ⟨_, [], .categorical .., by simp [LegalHypers, Categorical.init, Dict.get?], rfl⟩ rfl
    (by simp [Prim.outputs, Categorical.init, Prim.kind])

theorem extra_tidy' : Tidy [6] 0 (extra : Prim) :=
  .prim0 ⟨_, [], .bernoulli .., by simp [LegalHypers, Bernoulli.init, Dict.get?], rfl⟩ rfl
    (by simp [extra, Prim.outputs, Bernoulli.init, Prim.kind])

theorem pair_all {P : Prim → Prop} (h : P (.categorical (Categorical.init [1] [] [] [] 3)))
    (h' : P extra) : ∀ c ∈ pair.cgpms, P c := by
  intro c hc
  simp only [pair, List.mem_cons, List.not_mem_nil, or_false] at hc
  rcases hc with rfl | rfl
  · exact h
  · exact h'

theorem pairTile_tidy : Tidy [6] 1 pairTile :=
  .product (n := 0) (cs := [.categorical (Categorical.init [1] [] [] [] 3), extra])
    (pair_all cat1_tidy' extra_tidy') (by simp) rfl

theorem pairTile_empty (r : RowId) : HoldsNothing (cgpmI 1) pairTile r := by
  refine (holdsNothing_iff (cgpmTLaws [6] 1) (tidy_reg pairTile_tidy) r).2 fun v => ?_
  exact ProdTab.cell_none_iff.2 (pair_all
    (show (primTab [6]).cell (.categorical (Categorical.init [1] [] [] [] 3)) r v = none by
      simp [primTab, Prim.data, Categorical.init])
    (show (primTab [6]).cell extra r v = none by
      simp [primTab, Prim.data, extra, Bernoulli.init]))

theorem coin_tidy : Tidy [6] 2 (.finMix coin : Node (Node Prim)) := by
  have hall : ∀ c ∈ [pairTile, pairTile], c = pairTile := by simp
  refine .finMix (n := 1) (cs := [pairTile, pairTile]) bern6_legally rfl
    (.inr rfl) (by simp [Prim.outputs, Bernoulli.init]) rfl ?_ ?_ ?_ ?_ rfl
  · intro c hc; rw [hall c hc]; exact pairTile_tidy
  · intro c hc; rw [hall c hc]; exact pairTile_empty
  · intro c hc c' hc'; rw [hall c hc, hall c' hc']
  · intro c hc
    rw [hall c hc, show (cgpmI 1).outputs pairTile = [1, 2] from rfl]
    simp [Prim.outputs, Bernoulli.init]

theorem coin0_tidy : Tidy [6] 2 (.finMix coin0 : Node (Node Prim)) := by
  refine .observe coin_tidy ?_ (coin0_observe fun _ => ⟨0, 0⟩)
  intro v hv x hx
  obtain rfl : v = 6 := by simpa using hv
  rw [Dict.get?_cons, if_pos rfl] at hx
  cases hx
  exact ⟨0, by simp⟩

end Cgpm2.Concrete
