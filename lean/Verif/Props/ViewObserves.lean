import Verif.Lemmas.ViewObserves
import Verif.Lemmas.ConcretePane

/-!
# Properties C60 and C74: the observations rendered from a view
-/

namespace Cgpm2.Props
open Spec

/-- C60, the part about rows and data: the observations rendered by `get_view_observes` mention
every row once, with exactly its own cells in the data columns, provided every row was observed
in at least one data column. -/
theorem C60_rows_partial {Z : List Var} {view : FlexMix (Node Prim)}
    (hview : Tidy Z 2 (.flexMix view : Node (Node Prim)))
    {crp : Crp} (hcrp : view.rowDivide = .crp crp) {o : Var} (ho : crp.outputs = [o])
    (hprod : ∀ kc ∈ view.array.cgpms, ∃ p, kc.2 = .product p) (hrows : crp.data ≠ []) (g : Rng)
    (hcells : ∀ r ∈ Dict.keys crp.data, ∃ v, v ≠ o ∧
      heldCell (cgpmI 2) (.flexMix view : Node (Node Prim)) g r v ≠ none) :
    ∃ l, getViewObserves view = .ok l ∧ (Dict.keys l).Perm (Dict.keys crp.data) ∧
      (Dict.keys l).Nodup ∧
      ∀ r d, Dict.get? l r = some d → ∀ v, v ≠ o →
        Dict.get? d v = heldCell (cgpmI 2) (.flexMix view : Node (Node Prim)) g r v := by
  obtain ⟨hn, -, comp, hcomp⟩ := view_facts (tidy_reg hview) hcrp ho hprod g hcells
  refine ⟨_, getViewObserves_eq hcrp ho hn hrows comp fun r hr => (hcomp r hr).1, ?_⟩
  set ps := crp.data.map fun p => (p.1, rankOf (sortedSet (Dict.values crp.data)) p.2) with hps
  have hsp : ((byTable ps).map Prod.fst).Perm (Dict.keys crp.data) := by
    have := (byTable_perm ps).map Prod.fst
    rwa [show ps.map Prod.fst = Dict.keys crp.data by
      simp [hps, Dict.keys, List.map_map, Function.comp_def]] at this
  have hk : ∀ f : RowId × Int → Dict Var Val, Dict.keys ((((byTable ps).map Prod.fst).zip
      (crp.data.map fun p => rankOf (sortedSet (Dict.values crp.data)) p.2)).map
        fun rt => (rt.1, f rt)) = (byTable ps).map Prod.fst := by
    intro f
    have h1 : ∀ (as : List RowId) (bs : List Int), as.length ≤ bs.length →
        (as.zip bs).map Prod.fst = as := fun as bs h => List.map_fst_zip h
    rw [Dict.keys, List.map_map]
    exact h1 _ _ (by rw [hsp.length_eq]; simp [Dict.keys])
  refine ⟨by rw [hk]; exact hsp, by rw [hk]; exact hsp.nodup_iff.2 hn, fun r d hd v hv => ?_⟩
  obtain ⟨rt, hrt, he⟩ := List.mem_map.1 (Dict.mem_of_get? hd)
  simp only [Prod.mk.injEq] at he
  obtain ⟨rfl, rfl⟩ := he
  have hr : rt.1 ∈ Dict.keys crp.data :=
    hsp.mem_iff.1 (List.of_mem_zip (show (rt.1, rt.2) ∈ _ from hrt)).1
  obtain ⟨-, h2, h3, h4⟩ := hcomp _ hr
  rw [get?_merged _ _ (by simp) h2, ← h4 v hv]
  rcases Dict.get? (comp rt.1) v with _ | x
  · simp [Dict.get?_cons, Ne.symm hv]
  · rfl

/-- C60, the part about clusters: when the rows were observed in the order of their tables, the
rendered observations mention every row once, in that order, with its own data and a cluster
number; two rows get the same number exactly when they share a cluster; and a fresh CRP accepts
the numbers in that order. -/
theorem C60_clusters_partial {Z : List Var} {view : FlexMix (Node Prim)}
    (hview : Tidy Z 2 (.flexMix view : Node (Node Prim)))
    {crp : Crp} (hcrp : view.rowDivide = .crp crp) {o : Var} (ho : crp.outputs = [o])
    (hprod : ∀ kc ∈ view.array.cgpms, ∃ p, kc.2 = .product p) (hrows : crp.data ≠ []) (g : Rng)
    (hcells : ∀ r ∈ Dict.keys crp.data, ∃ v, v ≠ o ∧
      heldCell (cgpmI 2) (.flexMix view : Node (Node Prim)) g r v ≠ none)
    (hsorted : crp.data.Pairwise fun a b => a.2 ≤ b.2) (hypers params : Dict String ℝ) :
    ∃ l, ∃ tables : List (RowId × Int), getViewObserves view = .ok l ∧
      Dict.keys l = Dict.keys crp.data ∧ Dict.keys tables = Dict.keys l ∧
      (∀ r d, Dict.get? l r = some d →
        Dict.get? d o = (Dict.get? tables r).map fun t => .num (t : ℚ)) ∧
      (∀ r s, r ∈ Dict.keys l → s ∈ Dict.keys l → (Dict.get? tables r = Dict.get? tables s ↔
        heldCell (cgpmI 2) (.flexMix view : Node (Node Prim)) g r o =
          heldCell (cgpmI 2) (.flexMix view : Node (Node Prim)) g s o)) ∧
      ∃ c, seat o tables (Crp.init [o] [] hypers params) = (.ok (), c) ∧ c.data = tables := by
  obtain ⟨hn, hz, comp, hcomp⟩ := view_facts (tidy_reg hview) hcrp ho hprod g hcells
  set rank := rankOf (sortedSet (Dict.values crp.data)) with hrank
  set ps := crp.data.map fun p => (p.1, rank p.2) with hps
  have hmem : ∀ p ∈ crp.data, p.2 ∈ sortedSet (Dict.values crp.data) := fun p hp =>
    (mem_sortedSet _ _).2 (List.mem_map_of_mem hp)
  have hpsorted : ps.Pairwise fun a b => a.2 ≤ b.2 := by
    rw [hps, List.pairwise_map]
    refine hsorted.imp_of_mem fun {a b} ha hb h => ?_
    rcases lt_or_eq_of_le h with h | h
    · have := (idxOf_lt_iff (sortedSet_increasing (Dict.values crp.data)) (hmem a ha) (hmem b hb)).2 h
      simp only [hrank, rankOf]
      omega
    · simp [h]
  have hkeys : Dict.keys ps = Dict.keys crp.data := by
    simp [hps, Dict.keys, List.map_map, Function.comp_def]
  have hl := getViewObserves_eq hcrp ho hn hrows comp fun r hr => (hcomp r hr).1
  rw [← hrank, ← hps, byTable_of_sorted hpsorted] at hl
  have hzip : ((ps.map Prod.fst).zip (crp.data.map fun p => rank p.2)) = ps := by
    rw [show (crp.data.map fun p => rank p.2) = ps.map Prod.snd by
      simp [hps, List.map_map, Function.comp_def]]
    exact (List.zip_of_prod rfl rfl).symm
  rw [hzip] at hl
  have hkl : Dict.keys (ps.map fun rt => (rt.1, merged [(o, Val.num (rt.2 : ℚ))] (comp rt.1))) =
      Dict.keys ps := by
    simp [Dict.keys, List.map_map, Function.comp_def]
  have hget : ∀ r, Dict.get? ps r = (Dict.get? crp.data r).map rank := by
    intro r
    rcases h : Dict.get? crp.data r with _ | t
    · rw [Dict.get?_eq_none_iff] at h
      rw [(Dict.get?_eq_none_iff _ _).2 (by rw [hkeys]; exact h)]
      rfl
    · refine Dict.get?_of_mem (by rw [hkeys]; exact hn) ?_
      exact List.mem_map.2 ⟨(r, t), Dict.mem_of_get? h, rfl⟩
  refine ⟨_, ps, hl, by rw [hkl, hkeys], hkl.symm, fun r d hd => ?_, fun r s hr hs => ?_, ?_⟩
  · obtain ⟨rt, hrt, he⟩ := List.mem_map.1 (Dict.mem_of_get? hd)
    simp only [Prod.mk.injEq] at he
    obtain ⟨rfl, rfl⟩ := he
    have hr : rt.1 ∈ Dict.keys crp.data := by
      rw [← hkeys]
      exact List.mem_map_of_mem hrt
    obtain ⟨-, h2, h3, -⟩ := hcomp _ hr
    rw [get?_merged _ _ (by simp) h2, (Dict.get?_eq_none_iff _ _).2 h3,
      Dict.get?_of_mem (by rw [hkeys]; exact hn) (show (rt.1, rt.2) ∈ ps from hrt)]
    simp [Dict.get?_cons]
  · rw [hkl, hkeys] at hr hs
    obtain ⟨t, ht⟩ := Dict.exists_get?_of_mem_keys hr
    obtain ⟨u, hu⟩ := Dict.exists_get?_of_mem_keys hs
    rw [hget, hget, hz, hz, ht, hu]
    simp only [Option.map_some, Option.some.injEq, Val.num.injEq, Int.cast_inj]
    exact ⟨fun h => rankOf_inj (hmem _ (Dict.mem_of_get? ht)) h, fun h => by rw [h]⟩
  · refine seat_sorted o ps _ (Crp.inv_init o [] hypers params) rfl rfl (by rw [hkeys]; exact hn)
      hpsorted ?_
    have := noGaps_rank ((sortedSet_increasing (Dict.values crp.data)).imp fun h => h.ne)
      (mem_sortedSet (Dict.values crp.data))
    rwa [← hrank, show (Dict.values crp.data).map rank = ps.map Prod.snd by
      simp [hps, Dict.values, List.map_map, Function.comp_def]] at this

/-- C74, the part about clusters: `get_view_observes_crp_vs` gives every row one number, and two
rows the same number exactly when they share a cluster. -/
theorem C74_clusters_partial {Z : List Var} {view : FlexMix (Node Prim)}
    (hview : Tidy Z 2 (.flexMix view : Node (Node Prim)))
    {crp : Crp} (hcrp : view.rowDivide = .crp crp) {o : Var} (ho : crp.outputs = [o]) (g : Rng) :
    ∃ l, getViewObservesCrpVs view = .ok l ∧ Dict.keys l = Dict.keys crp.data ∧
      ∀ r s, r ∈ Dict.keys l → s ∈ Dict.keys l → (Dict.get? l r = Dict.get? l s ↔
        heldCell (cgpmI 2) (.flexMix view : Node (Node Prim)) g r o =
          heldCell (cgpmI 2) (.flexMix view : Node (Node Prim)) g s o) := by
  obtain ⟨hn, hz⟩ := view_tables (tidy_reg hview) hcrp ho g
  refine ⟨_, getViewObservesCrpVs_eq hcrp ho hn, ?_, fun r s hr hs => ?_⟩
  · simp [Dict.keys, List.map_map, Function.comp_def]
  · set rank := rankOf (sortedSet (Dict.values crp.data)) with hrank
    set ps := crp.data.map fun p => (p.1, rank p.2) with hps
    have hkeys : Dict.keys ps = Dict.keys crp.data := by
      simp [hps, Dict.keys, List.map_map, Function.comp_def]
    have hget : ∀ r t, Dict.get? crp.data r = some t → Dict.get? ps r = some (rank t) := fun r t h =>
      Dict.get?_of_mem (by rw [hkeys]; exact hn)
        (List.mem_map.2 ⟨(r, t), Dict.mem_of_get? h, rfl⟩)
    rw [hkeys] at hr hs
    obtain ⟨t, ht⟩ := Dict.exists_get?_of_mem_keys hr
    obtain ⟨u, hu⟩ := Dict.exists_get?_of_mem_keys hs
    rw [hget r t ht, hget s u hu, hz, hz, ht, hu]
    simp only [Option.map_some, Option.some.injEq, Val.num.injEq, Int.cast_inj]
    exact ⟨fun h => rankOf_inj ((mem_sortedSet _ _).2 (List.mem_map_of_mem (Dict.mem_of_get? ht))) h,
      fun h => by rw [h]⟩

/-- C60 fails: three rows of a view are observed in clusters 0, 1 and 0.  The rendered observations
put row 2, which shares the cluster of row 0, in a cluster of its own, and row 1 with row 0. -/
theorem C60_violated (g : Rng) :
    Tidy [5] 2 (.flexMix Concrete.pane2 : Node (Node Prim)) ∧
    getViewObserves Concrete.pane2 = .ok [(some 0, [(5, .num 0), (1, .num 2)]),
      (some 2, [(5, .num 1), (1, .num 2)]), (some 1, [(5, .num 0), (1, .num 1)])] ∧
    heldCell (cgpmI 2) (.flexMix Concrete.pane2 : Node (Node Prim)) g (some 0) 5 =
      heldCell (cgpmI 2) (.flexMix Concrete.pane2 : Node (Node Prim)) g (some 2) 5 ∧
    heldCell (cgpmI 2) (.flexMix Concrete.pane2 : Node (Node Prim)) g (some 0) 5 ≠
      heldCell (cgpmI 2) (.flexMix Concrete.pane2 : Node (Node Prim)) g (some 1) 5 := by
  refine ⟨Concrete.pane2_tidy, rfl, rfl, ?_⟩
  change some (Val.num 0) ≠ some (Val.num 1)
  simp

/-- C60 fails in a second way: when a row was observed with its cluster only, the call
raises. -/
theorem C60_missing_violated :
    Tidy [5] 2 (.flexMix Concrete.bare : Node (Node Prim)) ∧
    getViewObserves Concrete.bare = .error .assertionError :=
  ⟨Concrete.bare_tidy, rfl⟩

/-- C74 fails: two rows hold the cells 2 and 1 of column 1, and `get_view_observes_data_vs`
renders both cells as cells of row 1. -/
theorem C74_violated (g : Rng) :
    Tidy [5] 2 (.flexMix Concrete.pane1 : Node (Node Prim)) ∧
    getViewObservesDataVs Concrete.pane1 = .ok [(some 1, 1, .num 2), (some 1, 1, .num 1)] ∧
    heldCell (cgpmI 2) (.flexMix Concrete.pane1 : Node (Node Prim)) g (some 0) 1 = some (.num 2) ∧
    heldCell (cgpmI 2) (.flexMix Concrete.pane1 : Node (Node Prim)) g (some 1) 1 = some (.num 1) :=
  ⟨Concrete.pane1_tidy, rfl, rfl, rfl⟩

/-- C74, what `get_view_observes_data_vs` does render: the cells of all rows, in the order of the
rows, each under the last row. -/
theorem C74_cells_partial {Z : List Var} {view : FlexMix (Node Prim)}
    (hview : Tidy Z 2 (.flexMix view : Node (Node Prim)))
    {crp : Crp} (hcrp : view.rowDivide = .crp crp) {o : Var} (ho : crp.outputs = [o])
    (hprod : ∀ kc ∈ view.array.cgpms, ∃ p, kc.2 = .product p) (g : Rng)
    (hcells : ∀ r ∈ Dict.keys crp.data, ∃ v, v ≠ o ∧
      heldCell (cgpmI 2) (.flexMix view : Node (Node Prim)) g r v ≠ none) {last : RowId}
    (hlast : (Dict.keys crp.data).getLast? = some last) :
    ∃ cells : RowId → Dict Var Val,
      getViewObservesDataVs view = .ok ((Dict.keys crp.data).flatMap fun r =>
        (cells r).map fun kv => (last, kv.1, kv.2)) ∧
      ∀ r ∈ Dict.keys crp.data, (Dict.keys (cells r)).Nodup ∧ ∀ v, Dict.get? (cells r) v =
        if v = o then none else heldCell (cgpmI 2) (.flexMix view : Node (Node Prim)) g r v := by
  obtain ⟨-, -, comp, hcomp⟩ := view_facts (tidy_reg hview) hcrp ho hprod g hcells
  refine ⟨comp, ?_, fun r hr => ⟨(hcomp r hr).2.1, fun v => ?_⟩⟩
  · unfold getViewObservesDataVs viewCrp
    rw [hcrp]
    change (match (Dict.keys crp.data).getLast? with
      | none => pure []
      | some last => do
        let observeComponents ← (Dict.keys crp.data).mapM (getComponentsObserves view.array)
        pure (observeComponents.flatMap fun obs => obs.map fun kv => (last, kv.1, kv.2)) :
          Except Err _) = _
    rw [hlast]
    dsimp only
    rw [mapM_ok_map _ comp _ fun r hr => (hcomp r hr).1]
    change Except.ok _ = _
    rw [List.flatMap_map]
  · split
    · next h => subst h; exact (Dict.get?_eq_none_iff _ _).2 (hcomp r hr).2.2.1
    · next h => exact (hcomp r hr).2.2.2 v h

/-- A view with two rows in different clusters meets the hypotheses of the theorems above. -/
example (g : Rng) : Tidy [5] 2 (.flexMix Concrete.pane1 : Node (Node Prim)) ∧
    (∀ kc ∈ Concrete.pane1.array.cgpms, ∃ p, kc.2 = .product p) ∧
    (∃ crp, Concrete.pane1.rowDivide = .crp crp ∧ crp.outputs = [5] ∧ crp.data ≠ [] ∧
      (crp.data.Pairwise fun a b => a.2 ≤ b.2) ∧ (Dict.keys crp.data).getLast? = some (some 1) ∧
      ∀ r ∈ Dict.keys crp.data, ∃ v, v ≠ 5 ∧
        heldCell (cgpmI 2) (.flexMix Concrete.pane1 : Node (Node Prim)) g r v ≠ none) := by
  refine ⟨Concrete.pane1_tidy, fun kc hkc => ?_, _, rfl, rfl, by simp, by simp, rfl, fun r hr => ⟨1, by decide, ?_⟩⟩
  · simp only [Concrete.pane1, List.mem_cons, List.not_mem_nil, or_false] at hkc
    rcases hkc with rfl | rfl <;> exact ⟨_, rfl⟩
  · simp only [Dict.keys, List.map_cons, List.map_nil, List.mem_cons, List.not_mem_nil, or_false] at hr
    rcases hr with rfl | rfl
    · change some (Val.num 2) ≠ none; simp
    · change some (Val.num 1) ≠ none; simp

end Cgpm2.Props
