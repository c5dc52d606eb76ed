import Verif.Lemmas.Render

/-!
# Properties C61, C63: renumbering and sorting cluster assignments
-/

namespace Cgpm2.Props
open Spec

/-- C61: `reindex_crp_observes` gives each observation a new table number, in the same order as
the old ones, and the new numbers are `0, …, n-1` without gaps. -/
theorem C61_reindex (o : Var) (tables : List Int) (h : tables ≠ []) :
    ∃ new : List Int, reindexCrpObserves (tables.map fun t => [(o, t)]) =
        .ok (new.map fun t => [(o, t)]) ∧
      new.length = tables.length ∧ NoGaps new ∧
      ∀ i j (hi : i < tables.length) (hj : j < tables.length) (hi' : i < new.length)
        (hj' : j < new.length), (new[i] < new[j] ↔ tables[i] < tables[j]) ∧
          (new[i] = new[j] ↔ tables[i] = tables[j]) := by
  refine ⟨_, reindex_eq o h, by simp, noGaps_rank ((sortedSet_increasing _).imp fun h => h.ne)
    (mem_sortedSet tables), fun i j hi hj hi' hj' => ?_⟩
  have hmi := (mem_sortedSet tables tables[i]).2 (List.getElem_mem hi)
  have hmj := (mem_sortedSet tables tables[j]).2 (List.getElem_mem hj)
  simp only [List.getElem_map]
  refine ⟨?_, fun h => rankOf_inj hmi h, fun h => by rw [h]⟩
  rw [← idxOf_lt_iff (sortedSet_increasing tables) hmi hmj]
  unfold rankOf
  omega

/-- C61: `get_sorted_rowids` returns the rows in the order of their tables, rows of one table in
the order they came in. -/
theorem C61_sorted (o : Var) (rows : List (RowId × Int)) (h : rows ≠ []) :
    ∃ sorted : List (RowId × Int),
      getSortedRowids (rows.map Prod.fst) (rows.map fun r => [(o, r.2)]) =
        .ok (sorted.map Prod.fst) ∧
      sorted.Perm rows ∧ (sorted.Pairwise fun a b => a.2 ≤ b.2) ∧
      ∀ t, sorted.filter (fun r => r.2 = t) = rows.filter fun r => r.2 = t := by
  refine ⟨byTable rows, ?_, byTable_perm rows, byTable_sorted rows, byTable_stable rows⟩
  have := sorted_eq o h
  rwa [List.map_map] at this

/-- C63: whatever the order in which Python enumerates the set of tables, the assignments chosen
by `rebase_cgpm_row_assignments` mention each row once, put rows together exactly when they were
together, and are accepted in the given order by a fresh CRP, which then holds them. -/
theorem C63_accepted (uniqueTables : List Int) (Zr : Dict RowId Int)
    (hrows : (Dict.keys Zr).Nodup)
    (hset : uniqueTables.Nodup ∧ ∀ t, t ∈ uniqueTables ↔ t ∈ Dict.values Zr)
    (o : Var) (hypers params : Dict String ℝ) :
    ∃ l, rebaseRowAssignments uniqueTables Zr = .ok l ∧
      (Dict.keys l).Perm (Dict.keys Zr) ∧
      (∀ r s t u t' u', Dict.get? Zr r = some t → Dict.get? Zr s = some u →
        Dict.get? l r = some t' → Dict.get? l s = some u' → (t' = u' ↔ t = u)) ∧
      ∃ c, seat o l (Crp.init [o] [] hypers params) = (.ok (), c) ∧ c.data = l := by
  refine ⟨_, rebase_eq hset.2, ?_⟩
  set new := Zr.map fun kv => (kv.1, rankOf uniqueTables kv.2) with hnew
  have hp : (new.insertionSort fun a b => a.2 ≤ b.2).Perm new := List.perm_insertionSort _ _
  have hkeys : Dict.keys new = Dict.keys Zr := by
    simp [hnew, Dict.keys, List.map_map, Function.comp_def]
  have hkp : (Dict.keys (new.insertionSort fun a b => a.2 ≤ b.2)).Perm (Dict.keys Zr) := by
    rw [← hkeys]
    exact hp.map _
  have hnd : (Dict.keys (new.insertionSort fun a b => a.2 ≤ b.2)).Nodup := hkp.nodup_iff.2 hrows
  have hget : ∀ r t t', Dict.get? Zr r = some t →
      Dict.get? (new.insertionSort fun a b => a.2 ≤ b.2) r = some t' →
      t ∈ uniqueTables ∧ t' = rankOf uniqueTables t := by
    intro r t t' h h'
    have hm := hp.mem_iff.1 (Dict.mem_of_get? h')
    obtain ⟨kv, hkv, he⟩ := List.mem_map.1 hm
    simp only [Prod.mk.injEq] at he
    obtain ⟨rfl, rfl⟩ := he
    have := Dict.get?_of_mem hrows hkv
    rw [h] at this
    obtain rfl := Option.some.inj this
    exact ⟨(hset.2 _).2 (List.mem_map_of_mem hkv), rfl⟩
  refine ⟨hkp, fun r s t u t' u' hr hs hr' hs' => ?_, ?_⟩
  · obtain ⟨h1, rfl⟩ := hget r t t' hr hr'
    obtain ⟨h2, rfl⟩ := hget s u u' hs hs'
    exact ⟨fun h => rankOf_inj h1 h, fun h => by rw [h]⟩
  · refine seat_sorted o _ _ (Crp.inv_init o [] hypers params) rfl rfl hnd ?_ ?_
    · have : IsTrans (RowId × Int) fun a b => a.2 ≤ b.2 := ⟨fun _ _ _ h h' => le_trans h h'⟩
      have : Std.Total (fun a b : RowId × Int => a.2 ≤ b.2) := ⟨fun a b => le_total a.2 b.2⟩
      exact List.pairwise_insertionSort _ _
    · have : NoGaps ((Dict.values Zr).map (rankOf uniqueTables)) := noGaps_rank hset.1 hset.2
      refine NoGaps.perm this ?_
      rw [show (Dict.values Zr).map (rankOf uniqueTables) = new.map Prod.snd by
        simp [hnew, Dict.values, List.map_map, Function.comp_def]]
      exact (hp.map _).symm

/-- Three rows at tables 7, 3, 7. -/
example : reindexCrpObserves [[(5, 7)], [(5, 3)], [(5, 7)]] = .ok [[(5, 1)], [(5, 0)], [(5, 1)]] := by
  decide
example : getSortedRowids [some 0, some 1, some 2] [[(5, 7)], [(5, 3)], [(5, 7)]] =
    .ok [some 1, some 0, some 2] := by decide
example : rebaseRowAssignments [7, 3] [(some 0, 7), (some 1, 3), (some 2, 7)] =
    .ok [(some 0, 0), (some 2, 0), (some 1, 1)] := by decide

end Cgpm2.Props
