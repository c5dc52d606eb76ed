import Verif.Lemmas.Render
import Verif.Lemmas.TidyLaws
import Verif.Lemmas.Accept

/-!
# Rendering a view (helpers)
-/

namespace Cgpm2
open Spec

theorem eq_of_filters {α : Type} (f : α → Int) {l m : List α} (hl : l.Pairwise fun a b => f a ≤ f b)
    (hm : m.Pairwise fun a b => f a ≤ f b)
    (h : ∀ t, l.filter (fun a => decide (f a = t)) = m.filter fun a => decide (f a = t)) : l = m := by
  induction l generalizing m with
  | nil =>
    rcases m with _ | ⟨b, m⟩
    · rfl
    · have := h (f b)
      simp at this
  | cons a l ih =>
    rcases m with _ | ⟨b, m⟩
    · have := h (f a)
      simp at this
    · rw [List.pairwise_cons] at hl hm
      have hab : f a = f b := by
        have h1 : a ∈ (b :: m).filter fun x => decide (f x = f a) := by
          rw [← h (f a)]; simp
        have h2 : b ∈ (a :: l).filter fun x => decide (f x = f b) := by
          rw [h (f b)]; simp
        have h1 := (List.mem_filter.1 h1).1
        have h2 := (List.mem_filter.1 h2).1
        rcases List.mem_cons.1 h1 with rfl | h1
        · rfl
        · rcases List.mem_cons.1 h2 with rfl | h2
          · rfl
          · exact le_antisymm (hl.1 b h2) (hm.1 a h1)
      have ht := h (f a)
      rw [List.filter_cons, List.filter_cons] at ht
      simp only [hab, decide_true, if_true] at ht
      obtain ⟨rfl, -⟩ := List.cons.inj ht
      congr 1
      refine ih hl.2 hm.2 fun t => ?_
      have := h t
      rw [List.filter_cons, List.filter_cons] at this
      split at this
      · exact (List.cons.inj this).2
      · exact this

theorem byTable_of_sorted {ps : List (RowId × Int)} (h : ps.Pairwise fun a b => a.2 ≤ b.2) :
    byTable ps = ps :=
  eq_of_filters Prod.snd (byTable_sorted ps) h (byTable_stable ps)

theorem eq_nil_of_get? {d : Dict Var Val} (h : ∀ v, Dict.get? d v = none) : d = [] := by
  rcases d with _ | ⟨⟨k, x⟩, d⟩
  · rfl
  · have := h k
    rw [Dict.get?_cons, if_pos rfl] at this
    cases this

theorem getPrimitiveObserves_get {Z : List Var} {p : Prim} (h : (primTab Z).Reg p) (r : RowId) :
    (Dict.keys (getPrimitiveObserves p r)).Nodup ∧
      ∀ v, Dict.get? (getPrimitiveObserves p r) v = (primTab Z).cell p r v := by
  obtain ⟨o, ho⟩ := Prim.Inv.out h.1.1
  unfold getPrimitiveObserves
  simp only [primTab, ho, List.headD_cons, List.mem_singleton]
  rcases Dict.get? p.data r with _ | x
  · exact ⟨by simp, fun v => by simp⟩
  · refine ⟨by simp, fun v => ?_⟩
    rw [Dict.get?_cons]
    by_cases hv : o = v
    · subst hv; simp
    · rw [if_neg hv, if_neg (fun e => hv e.symm)]; rfl

theorem getProductObserves_get {Z : List Var} {p : Product Prim}
    (h : (cgpmTab Z 1).Reg (.product p : Node Prim)) (r : RowId) :
    ∃ d, getProductObserves (.product p) r = .ok d ∧ (Dict.keys d).Nodup ∧
      ∀ v, Dict.get? d v = (cgpmTab Z 1).cell (.product p : Node Prim) r v := by
  obtain ⟨h1, h2, -⟩ : (productTab primI (primTab Z)).Reg p := h
  refine ⟨_, rfl, nodup_mergedl _, fun v => ?_⟩
  have hn := Product.validate_nodup h2
  have := mergedl_cells (I := primI) (M := primSem) (T := primTab Z) (cgpmTLaws Z 0)
    (xs := p.cgpms.map fun c => (c, (getPrimitiveObserves c r, []), c)) (r := r)
    (by
      intro x hx
      obtain ⟨c, hc, rfl⟩ := List.mem_map.1 hx
      exact h1 c hc)
    (by simpa [List.map_map, Function.comp_def] using hn)
    (by
      intro x hx
      obtain ⟨c, hc, rfl⟩ := List.mem_map.1 hx
      exact (getPrimitiveObserves_get (h1 c hc) r).1)
    (by
      intro x hx
      obtain ⟨c, hc, rfl⟩ := List.mem_map.1 hx
      exact (getPrimitiveObserves_get (h1 c hc) r).2) v
  simp only [List.map_map, Function.comp_def, List.map_id'] at this
  exact this

theorem getComponentsObserves_get {Z : List Var} {I : Iface (Node Prim)} {M : Sem (Node Prim)}
    {T : Tab (Node Prim)} (K : TLaws I M Z T)
    (hT : ∀ p, T.Reg (.product p) → ∀ r, ∃ d, getProductObserves (.product p) r = .ok d ∧
      (Dict.keys d).Nodup ∧ ∀ v, Dict.get? d v = T.cell (.product p) r v)
    {m : FlexMix (Node Prim)} (h : (flexMixTab I M Z T).Reg m)
    (hp : ∀ kc ∈ m.array.cgpms, ∃ p, kc.2 = .product p) {r : RowId}
    (hr : ∃ v, v ≠ m.indexer ∧ (flexMixTab I M Z T).cell m r v ≠ none) :
    ∃ d, getComponentsObserves m.array r = .ok d ∧ (Dict.keys d).Nodup ∧ m.indexer ∉ Dict.keys d ∧
      ∀ v, v ≠ m.indexer →
        Dict.get? d v = (flexMixTab I M Z T).cell m r v := by
  have hcell : ∀ v, v ≠ m.indexer → (flexMixTab I M Z T).cell m r v =
      (Dict.get? m.rowidToComponent r).bind fun z =>
        ((flexArr M).get m.array z).bind fun c => T.cell c r v := fun v hv =>
    if_neg hv
  obtain ⟨v0, hv0, hne⟩ := hr
  rw [hcell v0 hv0] at hne
  rcases hz : Dict.get? m.rowidToComponent r with _ | z
  · rw [hz] at hne; exact absurd rfl hne
  · rw [hz] at hne
    -- the component of the row
    have hnd : (Dict.keys m.array.cgpms).Nodup := h.inv.2.1.2.2.1
    obtain ⟨c, hc⟩ : ∃ c, Dict.get? m.array.cgpms z = some c := by
      rcases hc : Dict.get? m.array.cgpms z with _ | c
      · exfalso
        obtain ⟨k, hk⟩ := exists_notMem_list (z :: Dict.keys m.array.cgpms)
        have hk1 : k ≠ z := fun e => hk (by simp [e])
        have hk2 : Dict.get? m.array.cgpms k = none :=
          (Dict.get?_eq_none_iff _ _).2 fun e => hk (by simp [e])
        have hf := h.fresh r k _ rfl (by rw [hz]; exact fun e => hk1 (Option.some.inj e).symm) v0
        apply hne
        have e1 : (flexArr M).get m.array z = some (M.strip m.array.base) := by
          simp [flexArr, FlexArray.comp, hc]
        have e2 : (flexArr M).get m.array k = some (M.strip m.array.base) := by
          simp [flexArr, FlexArray.comp, hk2]
        have e3 : m.array.comp M k = M.strip m.array.base :=
          Option.some.inj e2
        rw [e3] at hf
        rw [Option.bind_some, e1, Option.bind_some]
        exact hf
      · exact ⟨c, rfl⟩
    have hget : ∀ k c, Dict.get? m.array.cgpms k = some c →
        (flexArr M).get m.array k = some c := fun k c hk => by
      simp [flexArr, FlexArray.comp, hk]
    have hobs : ∀ kc ∈ m.array.cgpms, ∃ d, getProductObserves kc.2 r = .ok d ∧
        (Dict.keys d).Nodup ∧ (∀ v, Dict.get? d v = T.cell kc.2 r v) ∧
        (kc.1 ≠ z → d = []) := by
      intro kc hkc
      have hk := Dict.get?_of_mem hnd (show (kc.1, kc.2) ∈ m.array.cgpms from hkc)
      have hreg := (h.comp _ _ (hget _ _ hk)).1
      obtain ⟨p, hp⟩ := hp kc hkc
      rw [hp] at hreg ⊢
      obtain ⟨d, h1, h2, h3⟩ := hT p hreg r
      refine ⟨d, h1, h2, h3, fun hkz => eq_nil_of_get? fun v => ?_⟩
      rw [h3 v, ← hp]
      exact h.fresh r kc.1 kc.2 (hget _ _ hk)
        (by rw [hz]; exact fun e => hkz (Option.some.inj e).symm) v
    have hzc : (z, c) ∈ m.array.cgpms := Dict.mem_of_get? hc
    obtain ⟨d, h1, h2, h3, -⟩ := hobs (z, c) hzc
    have hcd : ∀ v, v ≠ m.indexer →
        (flexMixTab I M Z T).cell m r v = Dict.get? d v := fun v hv => by
      rw [hcell v hv, hz, Option.bind_some, hget _ _ hc, Option.bind_some, h3 v]
    have hdne : d ≠ [] := by
      rintro rfl
      apply hne
      rw [Option.bind_some, hget _ _ hc, Option.bind_some]
      have := h3 v0
      exact this.symm
    -- the list of observations
    let obs : Node Prim → Dict Var Val := fun c => match getProductObserves c r with
      | .ok d => d
      | .error _ => []
    have hmap : (Dict.values m.array.cgpms).mapM (fun product => getProductObserves product r) =
        .ok ((Dict.values m.array.cgpms).map obs) := by
      apply mapM_ok_map
      intro a ha
      obtain ⟨kc, hkc, rfl⟩ := List.mem_map.1 ha
      obtain ⟨d, h, -⟩ := hobs kc hkc
      simp only [obs, h]
    have hperm : (((Dict.values m.array.cgpms).map obs).filter fun x => decide (x ≠ [])).Perm [d] := by
      have hp1 := (Dict.perm_cons_del m.array.cgpms z c hc)
      have hp2 := ((hp1.map Prod.snd).map obs).filter fun x => decide (x ≠ [])
      refine hp2.trans (List.Perm.of_eq ?_)
      rw [List.map_cons, List.map_cons, List.filter_cons]
      have hod : obs c = d := by simp only [obs]; rw [h1]
      rw [hod, if_pos (by simpa using hdne)]
      congr 1
      rw [List.filter_eq_nil_iff]
      intro x hx
      obtain ⟨c', hc', rfl⟩ := List.mem_map.1 hx
      obtain ⟨kc, hkc, rfl⟩ := List.mem_map.1 hc'
      have hkm : kc ∈ m.array.cgpms := hp1.mem_iff.2 (by simp [hkc])
      have hkz : kc.1 ≠ z := by
        rintro rfl
        have h5 := (hp1.map Prod.fst).nodup_iff.1 hnd
        rw [List.map_cons, List.nodup_cons] at h5
        exact h5.1 (List.mem_map.2 ⟨kc, hkc, rfl⟩)
      obtain ⟨d', h6, -, -, h7⟩ := hobs kc hkm
      have : obs kc.2 = [] := by simp only [obs]; rw [h6]; exact h7 hkz
      simp [this]
    have heq : (((Dict.values m.array.cgpms).map obs).filter fun x => decide (x ≠ [])) = [d] :=
      List.perm_singleton.1 hperm
    refine ⟨d, ?_, h2, ?_, fun v hv => (hcd v hv).symm⟩
    · unfold getComponentsObserves
      rw [hmap]
      change (match ((Dict.values m.array.cgpms).map obs).filter (fun x => decide (x ≠ [])) with
        | [observe] => Except.ok observe
        | _ => Except.error Err.assertionError) = _
      rw [heq]
    · rw [← Dict.get?_eq_none_iff, h3]
      refine K.cell_out _ _ _ (h.comp _ _ (hget _ _ hc)).1 ?_
      rw [(h.comp _ _ (hget _ _ hc)).2]
      exact h.x_out

/-- The lists `get_view_observes` pairs up. -/
theorem getViewObserves_eq {m : FlexMix (Node Prim)} {c : Crp} (hc : m.rowDivide = .crp c) {o : Var}
    (ho : c.outputs = [o]) (hn : (Dict.keys c.data).Nodup) (hne : c.data ≠ [])
    (comp : RowId → Dict Var Val)
    (hcomp : ∀ r ∈ Dict.keys c.data, getComponentsObserves m.array r = .ok (comp r)) :
    getViewObserves m =
      .ok (((byTable (c.data.map fun p => (p.1, rankOf (sortedSet (Dict.values c.data)) p.2))).map
          Prod.fst).zip (c.data.map fun p => rankOf (sortedSet (Dict.values c.data)) p.2) |>.map
        fun rt => (rt.1, merged [(o, .num (rt.2 : ℚ))] (comp rt.1))) := by
  set rank := rankOf (sortedSet (Dict.values c.data)) with hrank
  set ps := c.data.map fun p => (p.1, rank p.2) with hps
  have hobs : (Dict.keys c.data).map (getCrpObserves c) =
      (Dict.values c.data).map fun t => [(o, t)] := by
    simp only [Dict.keys, Dict.values, List.map_map]
    apply List.map_congr_left
    intro p hp
    have := Dict.get?_of_mem hn (show (p.1, p.2) ∈ c.data from hp)
    simp only [Function.comp, getCrpObserves, this, ho, List.headD_cons]
  have hre := reindex_eq o (ts := Dict.values c.data) (by simpa [Dict.values] using hne)
  have hps1 : ps.map Prod.fst = Dict.keys c.data := by
    simp [hps, Dict.keys, List.map_map, Function.comp_def]
  have hps2 : ps.map Prod.snd = (Dict.values c.data).map rank := by
    simp [hps, Dict.values, List.map_map, Function.comp_def]
  have hso := sorted_eq o (ps := ps) (by simpa [hps] using hne)
  rw [hps1, hps2] at hso
  set sorted := (byTable ps).map Prod.fst with hsorted
  have hsp : sorted.Perm (Dict.keys c.data) := by
    rw [← hps1]
    exact (byTable_perm ps).map _
  have hsn : sorted.Nodup := hsp.nodup_iff.2 hn
  set news := (Dict.values c.data).map rank with hnews
  have hlen : sorted.length = news.length := by
    rw [hsp.length_eq, hnews]
    simp [Dict.keys, Dict.values]
  have hidx : sorted.mapM (fun rowid => do
      let i ← Dict.getItem (sorted.zipIdx : Dict RowId Nat) rowid
      match (news.map fun t => ([(o, t)] : Dict Var Int))[i]? with
      | some observe => Except.ok observe
      | none => Except.error Err.indexError) = .ok (news.map fun t => [(o, t)]) := by
    rw [mapM_ok_map _ (fun r => ((news.map fun t => ([(o, t)] : Dict Var Int))[sorted.idxOf r]?).getD [])]
    · congr 1
      apply List.ext_getElem
      · simpa using hlen
      · intro i h1 h2
        rw [List.getElem_map, hsn.idxOf_getElem _ (by simpa using h1)]
        rw [List.getElem?_eq_getElem h2]
        rfl
    · intro r hr
      have h1 : Dict.getItem (sorted.zipIdx : Dict RowId Nat) r = .ok (sorted.idxOf r) := by
        have := get?_zipIdx (fun n : Nat => n) sorted 0 hr
        simp only [Nat.add_zero] at this
        apply Dict.getItem_ok
        have e : (Option.instBEq : BEq RowId) = instBEqOfDecidableEq := lawful_beq_subsingleton _ _
        rw [e]
        simpa using this
      rw [h1]
      have h2 : sorted.idxOf r < (news.map fun t => ([(o, t)] : Dict Var Int)).length := by
        rw [List.length_map, ← hlen]
        exact List.idxOf_lt_length_of_mem hr
      change (match (news.map fun t => ([(o, t)] : Dict Var Int))[sorted.idxOf r]? with
        | some observe => Except.ok observe
        | none => Except.error Err.indexError) = _
      rw [List.getElem?_eq_getElem h2]
      rfl
  have hcs := mapM_ok_map (getComponentsObserves m.array) comp sorted fun r hr =>
    hcomp r (hsp.mem_iff.1 hr)
  unfold getViewObserves viewCrp
  rw [hc]
  change (do
    let reindex ← reindexCrpObserves ((Dict.keys c.data).map (getCrpObserves c))
    let sortedRowids ← getSortedRowids (Dict.keys c.data) reindex
    let observeCrpSorted ← sortedRowids.mapM fun rowid => do
      let i ← Dict.getItem (sortedRowids.zipIdx : Dict RowId Nat) rowid
      match reindex[i]? with
      | some observe => Except.ok observe
      | none => Except.error Err.indexError
    let observeComponentsSorted ← sortedRowids.mapM (getComponentsObserves m.array)
    pure ((sortedRowids.zip (observeCrpSorted.zip observeComponentsSorted)).map fun t =>
      (t.1, merged (tableVals t.2.1) t.2.2)) : Except Err _) = _
  rw [hobs, hre]
  change (do
    let sortedRowids ← getSortedRowids (Dict.keys c.data) (news.map fun t => [(o, t)])
    let observeCrpSorted ← sortedRowids.mapM fun rowid => do
      let i ← Dict.getItem (sortedRowids.zipIdx : Dict RowId Nat) rowid
      match (news.map fun t => ([(o, t)] : Dict Var Int))[i]? with
      | some observe => Except.ok observe
      | none => Except.error Err.indexError
    let observeComponentsSorted ← sortedRowids.mapM (getComponentsObserves m.array)
    pure ((sortedRowids.zip (observeCrpSorted.zip observeComponentsSorted)).map fun t =>
      (t.1, merged (tableVals t.2.1) t.2.2)) : Except Err _) = _
  rw [hso]
  change (do
    let observeCrpSorted ← sorted.mapM fun rowid => do
      let i ← Dict.getItem (sorted.zipIdx : Dict RowId Nat) rowid
      match (news.map fun t => ([(o, t)] : Dict Var Int))[i]? with
      | some observe => Except.ok observe
      | none => Except.error Err.indexError
    let observeComponentsSorted ← sorted.mapM (getComponentsObserves m.array)
    pure ((sorted.zip (observeCrpSorted.zip observeComponentsSorted)).map fun t =>
      (t.1, merged (tableVals t.2.1) t.2.2)) : Except Err _) = _
  rw [hidx, hcs]
  change Except.ok _ = Except.ok _
  congr 1
  have hdn : (c.data.map fun p => rank p.2) = news := by
    simp [hnews, Dict.values, List.map_map, Function.comp_def]
  rw [hdn]
  apply List.ext_getElem
  · simp [hlen]
  · intro i h1 h2
    simp [tableVals]

end Cgpm2

namespace Cgpm2
open Spec

theorem crpData_get (d : Dict RowId Int) (r : RowId) :
    Dict.get? (d.map fun kv => (kv.1, Val.num ((kv.2 : Int) : ℚ))) r =
      (Dict.get? d r).map fun t => .num (t : ℚ) := by
  induction d with
  | nil => rfl
  | cons kv d ih =>
    obtain ⟨k, t⟩ := kv
    rw [List.map_cons, Dict.get?_cons, Dict.get?_cons, ih]
    split <;> rfl

/-- The tables of a tidy view. -/
theorem view_tables {Z : List Var} {m : FlexMix (Node Prim)}
    (hreg : (cgpmTab Z 2).Reg (.flexMix m : Node (Node Prim))) {c : Crp} (hc : m.rowDivide = .crp c) {o : Var}
    (ho : c.outputs = [o]) (g : Rng) :
    (Dict.keys c.data).Nodup ∧
    (∀ r, heldCell (cgpmI 2) (.flexMix m : Node (Node Prim)) g r o =
      (Dict.get? c.data r).map fun t => .num (t : ℚ)) := by
  have hx : m.indexer = o := by
    simp [RowMix.indexer, hc, Prim.outputs, ho]
  have hcell : ∀ r v, heldCell (cgpmI 2) (.flexMix m : Node (Node Prim)) g r v =
      (flexMixTab (cgpmI 1) (cgpmSem 1) Z (cgpmTab Z 1)).cell m r v := fun r v =>
    heldCell_eq (cgpmTLaws Z 2) hreg g r v
  have hR : (flexMixTab (cgpmI 1) (cgpmSem 1) Z (cgpmTab Z 1)).Reg m := hreg
  have hdata : ∀ r, (Dict.get? c.data r).map (fun t : Int => Val.num ((t : Int) : ℚ)) =
      Dict.get? m.rowidToComponent r := by
    intro r
    rw [← crpData_get, ← hR.data r, hc]
    rfl
  have hinv : m.rowDivide.Inv := hR.inv.1.1
  rw [hc] at hinv
  refine ⟨Crp.Inv.nodup hinv, fun r => ?_⟩
  rw [hcell, hdata]
  exact if_pos hx.symm

theorem getViewObservesCrpVs_eq {m : FlexMix (Node Prim)} {c : Crp} (hc : m.rowDivide = .crp c)
    {o : Var} (ho : c.outputs = [o]) (hn : (Dict.keys c.data).Nodup) :
    getViewObservesCrpVs m =
      .ok (c.data.map fun p => (p.1, rankOf (sortedSet (Dict.values c.data)) p.2)) := by
  unfold getViewObservesCrpVs viewCrp
  rw [hc]
  change (if Dict.keys c.data = [] then pure []
    else do
      let reindex ← reindexCrpObserves ((Dict.keys c.data).map (getCrpObserves c))
      ((Dict.keys c.data).zip reindex).mapM fun ro => do
        let t ← firstItem (Dict.values ro.2)
        pure (ro.1, t) : Except Err _) = _
  split
  · next h =>
    have : c.data = [] := by simpa [Dict.keys] using h
    rw [this]
    rfl
  · next h =>
    have hobs : (Dict.keys c.data).map (getCrpObserves c) =
        (Dict.values c.data).map fun t => [(o, t)] := by
      simp only [Dict.keys, Dict.values, List.map_map]
      apply List.map_congr_left
      intro p hp
      have := Dict.get?_of_mem hn (show (p.1, p.2) ∈ c.data from hp)
      simp only [Function.comp, getCrpObserves, this, ho, List.headD_cons]
    have hre := reindex_eq o (ts := Dict.values c.data)
      (by intro e; apply h; simpa [Dict.keys, Dict.values] using e)
    rw [hobs, hre]
    change ((Dict.keys c.data).zip (((Dict.values c.data).map (rankOf (sortedSet (Dict.values c.data)))).map
      fun t => [(o, t)])).mapM (fun ro => do
        let t ← firstItem (Dict.values ro.2)
        pure (ro.1, t) : RowId × Dict Var Int → Except Err (RowId × Int)) = _
    rw [mapM_ok_map _ (fun ro : RowId × Dict Var Int => (ro.1, (Dict.values ro.2).headD 0))]
    · congr 1
      apply List.ext_getElem
      · simp [Dict.keys, Dict.values]
      · intro i h1 h2
        simp [Dict.keys, Dict.values]
    · intro ro hro
      have h2 := (List.of_mem_zip (show (ro.1, ro.2) ∈ _ from hro)).2
      obtain ⟨t, -, ht⟩ := List.mem_map.1 h2
      rw [← ht]
      rfl

/-- What is known about a tidy view with a CRP divider over products. -/
theorem view_facts {Z : List Var} {m : FlexMix (Node Prim)}
    (hreg : (cgpmTab Z 2).Reg (.flexMix m : Node (Node Prim))) {c : Crp} (hc : m.rowDivide = .crp c) {o : Var}
    (ho : c.outputs = [o]) (hp : ∀ kc ∈ m.array.cgpms, ∃ p, kc.2 = .product p) (g : Rng)
    (hcells : ∀ r ∈ Dict.keys c.data, ∃ v, v ≠ o ∧
      heldCell (cgpmI 2) (.flexMix m : Node (Node Prim)) g r v ≠ none) :
    (Dict.keys c.data).Nodup ∧
    (∀ r, heldCell (cgpmI 2) (.flexMix m : Node (Node Prim)) g r o =
      (Dict.get? c.data r).map fun t => .num (t : ℚ)) ∧
    ∃ comp : RowId → Dict Var Val, ∀ r ∈ Dict.keys c.data,
      getComponentsObserves m.array r = .ok (comp r) ∧ (Dict.keys (comp r)).Nodup ∧
      o ∉ Dict.keys (comp r) ∧
      ∀ v, v ≠ o → Dict.get? (comp r) v =
        heldCell (cgpmI 2) (.flexMix m : Node (Node Prim)) g r v := by
  have hx : m.indexer = o := by
    simp [RowMix.indexer, hc, Prim.outputs, ho]
  have hcell : ∀ r v, heldCell (cgpmI 2) (.flexMix m : Node (Node Prim)) g r v =
      (flexMixTab (cgpmI 1) (cgpmSem 1) Z (cgpmTab Z 1)).cell m r v := fun r v =>
    heldCell_eq (cgpmTLaws Z 2) hreg g r v
  have hR : (flexMixTab (cgpmI 1) (cgpmSem 1) Z (cgpmTab Z 1)).Reg m := hreg
  have hdata : ∀ r, (Dict.get? c.data r).map (fun t : Int => Val.num ((t : Int) : ℚ)) =
      Dict.get? m.rowidToComponent r := by
    intro r
    rw [← crpData_get, ← hR.data r, hc]
    rfl
  have hinv : m.rowDivide.Inv := hR.inv.1.1
  rw [hc] at hinv
  refine ⟨Crp.Inv.nodup hinv, fun r => ?_, ?_⟩
  · rw [hcell, hdata]
    exact if_pos hx.symm
  · have : ∀ r ∈ Dict.keys c.data, ∃ d, getComponentsObserves m.array r = .ok d ∧
        (Dict.keys d).Nodup ∧ o ∉ Dict.keys d ∧ ∀ v, v ≠ o → Dict.get? d v =
          heldCell (cgpmI 2) (.flexMix m : Node (Node Prim)) g r v := by
      intro r hr
      obtain ⟨v, hv, hne⟩ := hcells r hr
      rw [hcell] at hne
      obtain ⟨d, h1, h2, h3, h4⟩ := getComponentsObserves_get (cgpmTLaws Z 1)
        (fun p h r => getProductObserves_get h r) hR hp (r := r) ⟨v, by rw [hx]; exact hv, hne⟩
      rw [hx] at h3 h4
      exact ⟨d, h1, h2, h3, fun v hv => by rw [hcell]; exact h4 v hv⟩
    choose! comp hcomp using this
    exact ⟨comp, hcomp⟩

end Cgpm2
