import Verif.Lemmas.ViewLaw
import Verif.Lemmas.ViewObserves
import Verif.Lemmas.ExportState
import Verif.Spec.Venture

/-!
# VentureScript programs (helpers)
-/

namespace Cgpm2.Venture
open Spec Views Conversion

variable {Z : List Var}

theorem primitive_ok {p : Prim} (h : HasMaker p) {o : Var} (ho : p.outputs = [o]) :
    ∃ mk, primitiveDistribution p = .ok (o, mk) ∧ MakerOf p mk := by
  have hh : p.outputs.headD 0 = o := by rw [ho]; rfl
  cases p with
  | normal p => exact ⟨_, by rw [← hh]; rfl, .normal p⟩
  | poisson p => exact ⟨_, by rw [← hh]; rfl, .poisson p⟩
  | categorical p => exact ⟨_, by rw [← hh]; rfl, .categorical p⟩
  | crp p => simp [HasMaker, Prim.kind] at h
  | bernoulli p => simp [HasMaker, Prim.kind] at h
  | normalUC p => simp [HasMaker, Prim.kind] at h

theorem product_ok {q : Product Prim} (hm : ∀ p ∈ q.cgpms, HasMaker p) (ho : ∀ p ∈ q.cgpms, ∃ o, p.outputs = [o]) :
    ∃ l, productDistributions (.product q) = .ok l ∧ l.map Prod.fst = q.cgpms.flatMap Prim.outputs ∧
      List.Forall₂ (fun p d => MakerOf p d.2) q.cgpms l := by
  change ∃ l, q.cgpms.mapM primitiveDistribution = .ok l ∧ _
  generalize q.cgpms = ps at hm ho
  induction ps with
  | nil => exact ⟨[], rfl, rfl, .nil⟩
  | cons p ps ih =>
    obtain ⟨o, h1⟩ := ho p (by simp)
    obtain ⟨mk, h2, h3⟩ := primitive_ok (hm p (by simp)) h1
    obtain ⟨l, h4, h5, h6⟩ := ih (fun p hp => hm p (by simp [hp])) (fun p hp => ho p (by simp [hp]))
    refine ⟨(o, mk) :: l, ?_, ?_, .cons h3 h6⟩
    · rw [List.mapM_cons, h2, h4]
      rfl
    · rw [List.map_cons, h5, List.flatMap_cons, h1]
      rfl

theorem sorted_tables {c : Crp} (h : c.Inv) : pySorted (Dict.keys c.counts) = sortedSet (Dict.values c.data) := by
  refine pySorted_eq_of_perm ((List.perm_ext_iff_of_nodup h.nodupC (List.nodup_dedup _)).2 fun t => ?_)
  rw [List.mem_dedup]
  have := h.counts t
  by_cases ht : c.seated t = 0
  · rw [if_pos ht] at this
    exact ⟨fun hk => absurd hk ((Dict.get?_eq_none_iff _ _).1 this),
      fun hv => absurd ht (Nat.pos_iff_ne_zero.1 (List.count_pos_iff.2 hv))⟩
  · rw [if_neg ht] at this
    exact ⟨fun _ => List.count_pos_iff.1 (Nat.pos_of_ne_zero ht), fun _ => List.mem_map.2 ⟨_, Dict.mem_of_get? this, rfl⟩⟩

theorem sum_seated (l : List Int) : ((sortedSet l).map fun t => ((l.count t : Nat) : Int)).sum = l.length := by
  have hp : (sortedSet l).Perm l.dedup := List.perm_insertionSort _ _
  rw [(hp.map _).sum_eq]
  have := List.sum_map_count_dedup_eq_length l
  have h2 := congrArg (Nat.cast : Nat → Int) this
  rw [← h2, Nat.cast_list_sum, List.map_map]
  rfl

theorem tables_ok {c : Crp} (h : c.Inv) (hne : c.data ≠ []) : crpTablesWeights c =
    .ok (some (sortedSet (Dict.values c.data)),
      (sortedSet (Dict.values c.data)).map fun t => ((Dict.values c.data).count t : ℚ) / c.data.length) := by
  have hs : sortedSet (Dict.values c.data) ≠ [] := by
    obtain ⟨⟨r, t⟩, hm⟩ := List.exists_mem_of_ne_nil _ hne
    exact List.ne_nil_of_mem ((mem_sortedSet _ _).2 (List.mem_map_of_mem hm))
  unfold crpTablesWeights
  rw [sorted_tables h]
  dsimp only
  rw [if_neg hs, mapM_ok _ _ (fun t => (((Dict.values c.data).count t : Nat) : Int)) fun t ht => by
    have h1 := h.counts t
    have h2 : c.seated t ≠ 0 := Nat.pos_iff_ne_zero.1 (List.count_pos_iff.2 ((mem_sortedSet _ _).1 ht))
    rw [if_neg h2] at h1
    unfold Dict.getItem
    rw [h1]
    rfl]
  change Except.ok _ = _
  rw [sum_seated, List.map_map]
  simp [Function.comp_def, Dict.values]

theorem transpose_ok {α : Type} [Inhabited α] {products : List (List α)} {n : Nat} (hne : products ≠ [])
    (h : ∀ l ∈ products, l.length = n) :
    transposeProducts products = .ok ((List.range n).map fun i => products.map fun l => l.getD i default) := by
  obtain ⟨l, ls, rfl⟩ := List.exists_cons_of_ne_nil hne
  unfold transposeProducts
  change (List.range l.length).mapM _ = _
  rw [h l (by simp)]
  refine mapM_ok _ _ _ fun i hi => mapM_ok _ _ _ fun p hp => ?_
  have : i < p.length := by rw [h p hp]; exact List.mem_range.1 hi
  rw [List.getElem?_eq_getElem this, List.getD, List.getElem?_eq_getElem this]
  rfl

/-- The component of a row that has a cell. -/
theorem comp_key {v : View} {m : FlexMix (Cgpm 1)} {p : Product (Cgpm 0)} (hf : Flat v m p) (h : (cgpmTab Z 2).Reg v)
    {r : RowId} {o : Var} {z : Val} (ho : o ∈ viewColumns v) (hz : Views.clusterOf v r = some z) (hc : (cgpmTab Z 2).cell v r o ≠ none) :
    ∃ q : Product (Cgpm 0), Dict.get? m.array.cgpms z = some (.product q : Node (Cgpm 0)) ∧ Part Z v z q := by
  obtain ⟨q, h1, h2⟩ := part_of hf h z
  rcases hk : Dict.get? m.array.cgpms z with _ | c
  · exfalso
    rw [← h2.columns] at ho
    obtain ⟨b, hb, hob⟩ := List.mem_flatMap.1 ho
    obtain ⟨o', ho'⟩ := (show (b : Prim).Inv from (h2.reg.1 b hb).1.1).out
    have hob : o ∈ Prim.outputs b := hob
    rw [ho', List.mem_singleton] at hob
    subst hob
    have hd := h2.data b hb o ho' r
    rw [if_pos hz] at hd
    obtain ⟨k, hkn⟩ := exists_notMem_list (z :: Dict.keys m.array.cgpms)
    have hk2 : Dict.get? m.array.cgpms k = none := (Dict.get?_eq_none_iff _ _).2 fun e => hkn (by simp [e])
    obtain ⟨q', h1', h2'⟩ := part_of hf h k
    have e : m.array.comp (cgpmSem 1) k = m.array.comp (cgpmSem 1) z := by
      unfold FlexArray.comp
      rw [hk, hk2]
    rw [h1, h1'] at e
    injection e with e
    subst e
    have hd' := h2'.data b hb o ho' r
    rw [if_neg (by rw [hz]; exact fun e => hkn (by simp [Option.some.inj e]))] at hd'
    rw [hd'] at hd
    exact hc hd.symm
  · refine ⟨q, ?_, h2⟩
    unfold FlexArray.comp at h1
    rw [hk] at h1
    exact congrArg some h1

/-- The primitive of a column that holds a row is in the component of the row. -/
theorem holder {v : View} {m : FlexMix (Cgpm 1)} {p0 : Product (Cgpm 0)} (hf : Flat v m p0) (h : (cgpmTab Z 2).Reg v)
    {r : RowId} {o : Var} {z : Val} (ho : o ∈ viewColumns v) (hz : Views.clusterOf v r = some z) {q : Product (Cgpm 0)}
    (hq : Dict.get? m.array.cgpms z = some (.product q : Node (Cgpm 0))) {p : Prim} (hp : p ∈ primsIn 2 v)
    (hpo : p.outputs = [o]) (hr : r ∈ Dict.keys p.data) : p ∈ q.cgpms := by
  have hreg := h
  rw [hf.eq] at hreg hp
  have hreg : MixReg _ _ _ _ _ _ _ m := hreg
  have hp : p ∈ m.rowDivide :: ((Dict.values m.array.cgpms).flatMap (primsIn 1) ++ primsIn 1 m.array.base) := hp
  have hcol : viewColumns v = p0.cgpms.flatMap (cgpmI 0).outputs := by
    unfold viewColumns
    rw [hf.outputs]
    rfl
  rcases List.mem_cons.1 hp with rfl | hp
  · exfalso
    rw [hf.out] at hpo
    injection hpo with e
    subst e
    rw [hcol] at ho
    have := hreg.x_out
    change m.indexer ∉ (cgpmI 1).outputs m.array.base at this
    rw [hf.base] at this
    exact this ho
  rcases List.mem_append.1 hp with hp | hp
  · obtain ⟨c, hc, hp⟩ := List.mem_flatMap.1 hp
    obtain ⟨⟨k, c'⟩, hkc, rfl⟩ := List.mem_map.1 hc
    obtain ⟨q', h1, h2⟩ := part_of hf h k
    have hkg := Dict.get?_of_mem hreg.inv.2.1.2.2.1 hkc
    unfold FlexArray.comp at h1
    rw [hkg] at h1
    have h1 : c' = (.product q' : Node (Cgpm 0)) := h1
    subst h1
    have hp1 : p ∈ q'.cgpms := by
      have hp : p ∈ primsIn 1 (.product q' : Node (Cgpm 0)) := hp
      rwa [product_prims] at hp
    have hd := h2.data p hp1 o hpo r
    by_cases e : Views.clusterOf v r = some k
    · rw [hz] at e
      cases e
      rw [hkg] at hq
      injection hq with hq
      injection hq with hq
      subst hq
      exact hp1
    · rw [if_neg e] at hd
      exact absurd hr ((Dict.get?_eq_none_iff _ _).1 hd)
  · exfalso
    obtain ⟨hb1, -, hb3⟩ := flexMix_base (cgpmLaws 1) (cgpmTLaws Z 1) (m := m) hreg
    rw [hf.base] at hb1 hb3 hp
    rw [product_prims] at hp
    have hcell := (ProdTab.cell_of_mem (cgpmTLaws Z 0) hb1.1 hf.nodup hp (by change o ∈ Prim.outputs p; simp [hpo]) r).symm.trans (hb3 r o)
    have hcell : (primTab Z).cell p r o = none := hcell
    simp only [primTab, hpo, List.mem_singleton, if_true] at hcell
    exact (Dict.get?_eq_none_iff _ _).1 hcell hr

/-- What is known of the component of a table. -/
structure Table (Z : List Var) (v : View) (m : FlexMix (Cgpm 1)) (t : Int) (q : Product (Cgpm 0)) (l : List (Var × Maker)) :
    Prop where
  key : Dict.get? m.array.cgpms (.num (t : ℚ)) = some (.product q : Node (Cgpm 0))
  part : Part Z v (.num (t : ℚ)) q
  made : productDistributions (.product q : Node Prim) = .ok l
  columns : l.map Prod.fst = viewColumns v
  describes : List.Forall₂ (fun p d => MakerOf p d.2) (show List Prim from q.cgpms) l

theorem map_range_getD {α β : Type} (l : List α) (f : α → β) (d : α) :
    ((List.range l.length).map fun i => f (l.getD i d)) = l.map f := by
  apply List.ext_getElem
  · simp
  · intro i h1 h2
    simp only [List.length_map] at h2
    simp [List.getD, h2]

/-- A primitive of a product, found by its output. -/
theorem found {ps : List Prim} {l : List (Var × Maker)} (hf : List.Forall₂ (fun p d => MakerOf p d.2) ps l)
    (hs : ∀ p ∈ ps, ∃ o, p.outputs = [o]) {cols : List Var} (hc : ps.flatMap Prim.outputs = cols) (hn : cols.Nodup)
    {p : Prim} (hp : p ∈ ps) {i : Nat} (hi : i < cols.length) (ho : p.outputs = [cols[i]]) :
    MakerOf p (l.getD i default).2 := by
  induction hf generalizing cols i with
  | nil => cases hp
  | @cons a d ps l had _ ih =>
    obtain ⟨o, hao⟩ := hs a (by simp)
    rw [List.flatMap_cons, hao] at hc
    subst hc
    have hn : (o :: ps.flatMap Prim.outputs).Nodup := hn
    rcases List.mem_cons.1 hp with rfl | hp
    · rw [hao] at ho
      injection ho with ho
      rcases i with _ | i
      · exact had
      · exfalso
        have hi' : i < (ps.flatMap Prim.outputs).length := by simpa using hi
        have e : o = (ps.flatMap Prim.outputs)[i] := by simpa using ho
        exact (List.nodup_cons.1 hn).1 (e ▸ List.getElem_mem hi')
    · rcases i with _ | i
      · exfalso
        have e : p.outputs = [o] := by simpa using ho
        exact (List.nodup_cons.1 hn).1 (List.mem_flatMap.2 ⟨p, hp, by simp [e]⟩)
      · have hi' : i < (ps.flatMap Prim.outputs).length := by simpa using hi
        exact ih (fun p hp => hs p (by simp [hp])) rfl (List.nodup_cons.1 hn).2 hp hi' (by simpa using ho)

theorem count_rank {ks : List Int} {l : List Int} (hl : ∀ t ∈ l, t ∈ ks) {t : Int} :
    (l.map (rankOf ks)).count (rankOf ks t) = l.count t := by
  induction l with
  | nil => rfl
  | cons a l ih =>
    rw [List.map_cons, List.count_cons, List.count_cons, ih fun t h => hl t (by simp [h])]
    congr 1
    by_cases e : a = t
    · simp [e]
    · have : rankOf ks a ≠ rankOf ks t := fun h => e (rankOf_inj (hl a (by simp)) h)
      simp [e, this]

theorem table_ok {v : View} {m : FlexMix (Cgpm 1)} {p : Product (Cgpm 0)} (hf : Flat v m p) (h : (cgpmTab Z 2).Reg v)
    (hm : ∀ p ∈ primsIn 2 v, ∀ o ∈ viewColumns v, p.outputs = [o] → HasMaker p) {t : Int} {r : RowId} {o : Var}
    (ho : o ∈ viewColumns v) (hz : Views.clusterOf v r = some (.num (t : ℚ))) (hc : (cgpmTab Z 2).cell v r o ≠ none) :
    ∃ q l, Table Z v m t q l := by
  obtain ⟨q, h1, h2⟩ := comp_key hf h ho hz hc
  have hs : ∀ b ∈ (show List Prim from q.cgpms), ∃ o, b.outputs = [o] := fun b hb =>
    (show (b : Prim).Inv from (h2.reg.1 b hb).1.1).out
  obtain ⟨l, h3, h4, h5⟩ := product_ok (q := q) (fun b hb => by
    obtain ⟨o', ho'⟩ := hs b hb
    refine hm b ?_ o' ?_ ho'
    · rw [hf.eq]
      change b ∈ m.rowDivide :: ((Dict.values m.array.cgpms).flatMap (primsIn 1) ++ primsIn 1 m.array.base)
      refine List.mem_cons_of_mem _ (List.mem_append_left _ (List.mem_flatMap.2
        ⟨_, List.mem_map_of_mem (Dict.mem_of_get? h1), ?_⟩))
      change b ∈ primsIn 1 (.product q : Node (Cgpm 0))
      rw [product_prims]
      exact hb
    · rw [← h2.columns]
      exact List.mem_flatMap.2 ⟨b, hb, by change o' ∈ Prim.outputs b; simp [ho']⟩) hs
  exact ⟨q, l, h1, h2, h3, h4.trans h2.columns, h5⟩

/-- `get_view_representation` of a view with rows. -/
theorem view_ok {v : View} (h : (cgpmTab Z 2).Reg v) (hv : IsView v) (g : Rng)
    (hm : ∀ p ∈ primsIn 2 v, ∀ o ∈ viewColumns v, p.outputs = [o] → HasMaker p)
    (hrow : ∃ r, heldCluster v g r ≠ none)
    (hcell : ∀ r, heldCluster v g r ≠ none → ∃ o ∈ viewColumns v, heldCell (cgpmI 2) v g r o ≠ none) :
    ∃ (m : FlexMix (Node Prim)) (w : VsView) (mixtures : List (Var × List Maker)), v = (.flexMix m : Node (Node Prim)) ∧
      viewRepresentation m = .ok w ∧ Rendered v g w.weights w.observesCrp mixtures ∧
      w.distributions = mixtures.map (fun om => om.2.map fun mk => (om.1, mk)) ∧
      (∀ om ∈ mixtures, om.2 ≠ []) ∧ ∀ d ∈ w.observesData, d.2.1 ∈ viewColumns v := by
  obtain ⟨m, p, hf⟩ := flat_of_reg h hv
  have hreg := h
  rw [hf.eq] at hreg
  obtain ⟨c, hc⟩ : ∃ c, m.rowDivide = .crp c := by
    have := hf.kind
    rcases hd : m.rowDivide with c | c | c | c | c | c <;> rw [hd] at this <;> first | exact ⟨_, rfl⟩ | cases this
  have ho : c.outputs = [m.indexer] := by
    have := hf.out
    rw [hc] at this
    exact this
  have hinv : c.Inv := by
    have h2 : m.rowDivide.Inv := (show MixReg _ _ _ _ _ _ _ m from hreg).inv.1.1
    rw [hc] at h2
    exact h2
  have hhead : ((cgpmI 2).outputs v).headD 0 = m.indexer := by rw [hf.outputs]; rfl
  obtain ⟨hn, hz⟩ := view_tables hreg hc ho g
  have hcl : ∀ r, heldCluster v g r = (Dict.get? c.data r).map fun t => .num (t : ℚ) := fun r => by
    unfold heldCluster
    rw [hhead, hf.eq]
    exact hz r
  have hcl2 : ∀ r, Views.clusterOf v r = heldCluster v g r := fun r => by
    rw [Views.clusterOf_eq Z, heldCluster, heldCell_eq (cgpmTLaws Z 2) h]
  have hkey : ∀ r, r ∈ Dict.keys c.data ↔ heldCluster v g r ≠ none := fun r => by
    rw [hcl, Ne, Option.map_eq_none_iff, Dict.get?_eq_none_iff, not_not]
  have hdne : c.data ≠ [] := by
    obtain ⟨r, hr⟩ := hrow
    intro e
    have := (hkey r).2 hr
    rw [e] at this
    cases this
  set T := sortedSet (Dict.values c.data) with hT
  have hTm : ∀ t, t ∈ T ↔ t ∈ Dict.values c.data := mem_sortedSet _
  have hTn : T.Nodup := (sortedSet_increasing _).imp fun h => h.ne
  have hTne : T ≠ [] := by
    obtain ⟨⟨r, t⟩, hmm⟩ := List.exists_mem_of_ne_nil _ hdne
    exact List.ne_nil_of_mem ((hTm _).2 (List.mem_map_of_mem hmm))
  have hex : ∀ t ∈ T, ∃ q l, Table Z v m t q l := by
    intro t ht
    obtain ⟨⟨r, t'⟩, hrt, rfl⟩ := List.mem_map.1 ((hTm t).1 ht)
    have hg := Dict.get?_of_mem hn hrt
    have h1 : heldCluster v g r = some (.num ((t' : Int) : ℚ)) := by rw [hcl, hg]; rfl
    obtain ⟨o, hoc, hon⟩ := hcell r (by rw [h1]; simp)
    exact table_ok hf h hm hoc (by rw [hcl2, h1]) (by rwa [heldCell_eq (cgpmTLaws Z 2) h] at hon)
  have : Nonempty (Product (Cgpm 0)) := ⟨⟨[]⟩⟩
  choose! q l htab using hex
  set cols := viewColumns v with hcols
  have hlen : ∀ t ∈ T, (l t).length = cols.length := fun t ht => by
    have := congrArg List.length (htab t ht).columns
    rwa [List.length_map] at this
  have hsingle : ∀ t ∈ T, ∀ b ∈ (show List Prim from (q t).cgpms), ∃ o, b.outputs = [o] := fun t ht b hb =>
    (show (b : Prim).Inv from ((htab t ht).part.reg.1 b hb).1.1).out
  have harr : arrayDistributions m.array (some T) = .ok (T.map l) := by
    unfold arrayDistributions
    obtain ⟨t, ht⟩ := List.exists_mem_of_ne_nil _ hTne
    rw [if_neg (by
      intro e
      have := Dict.mem_of_get? (htab t ht).key
      rw [List.length_eq_zero_iff.1 e] at this
      cases this)]
    refine mapM_ok _ _ _ fun t ht => ?_
    unfold Dict.getItem
    have hk := (htab t ht).key
    have hk : Dict.get? (show Dict Val (Node Prim) from m.array.cgpms) (.num (t : ℚ)) = some (.product (q t) : Node Prim) := hk
    rw [hk]
    exact (htab t ht).made
  have htr := transpose_ok (products := T.map l) (n := cols.length) (by simpa using hTne) (fun x hx => by
    obtain ⟨t, ht, rfl⟩ := List.mem_map.1 hx
    exact hlen t ht)
  set prims := (List.range cols.length).map fun i => (T.map l).map fun x => x.getD i default with hprims
  have hassert : ∀ x ∈ prims, x.length = (T.map fun t => ((Dict.values c.data).count t : ℚ) / c.data.length).length := by
    intro x hx
    obtain ⟨i, -, rfl⟩ := List.mem_map.1 hx
    simp
  obtain ⟨-, -, comp, hcomp⟩ := view_facts hreg hc ho (fun kc hkc => by
    obtain ⟨qq, e, -⟩ := comp_mem hf h (List.mem_map_of_mem (f := Prod.snd) hkc)
    exact ⟨qq, e⟩) g (fun r hr => by
      obtain ⟨o, hoc, hon⟩ := hcell r ((hkey r).1 hr)
      refine ⟨o, ?_, by rwa [hf.eq] at hon⟩
      rintro rfl
      have h2 := (show MixReg _ _ _ _ _ _ _ m from hreg).x_out
      change m.indexer ∉ (cgpmI 1).outputs m.array.base at h2
      rw [hf.base] at h2
      apply h2
      rw [hcols, viewColumns, hf.outputs] at hoc
      exact hoc)
  have hlast : ∃ last, (Dict.keys c.data).getLast? = some last := by
    rcases e : (Dict.keys c.data).getLast? with _ | last
    · rw [List.getLast?_eq_none_iff] at e
      exact absurd (List.map_eq_nil_iff.1 e) hdne
    · exact ⟨last, rfl⟩
  obtain ⟨last, hlast⟩ := hlast
  have hdat : getViewObservesDataVs m = .ok ((Dict.keys c.data).flatMap fun r =>
      (comp r).map fun kv => (last, kv.1, kv.2)) := by
    unfold getViewObservesDataVs viewCrp
    rw [hc]
    change (match (Dict.keys c.data).getLast? with
      | none => pure []
      | some last => do
        let observeComponents ← (Dict.keys c.data).mapM (getComponentsObserves m.array)
        pure (observeComponents.flatMap fun obs => obs.map fun kv => (last, kv.1, kv.2)) :
          Except Err _) = _
    rw [hlast]
    dsimp only
    rw [mapM_ok_map _ comp _ fun r hr => (hcomp r hr).1]
    change Except.ok _ = _
    rw [List.flatMap_map]
  have hrep : viewRepresentation m = .ok ⟨T.map fun t => ((Dict.values c.data).count t : ℚ) / c.data.length, prims,
      c.data.map fun p => (p.1, rankOf T p.2), (Dict.keys c.data).flatMap fun r =>
        (comp r).map fun kv => (last, kv.1, kv.2)⟩ := by
    unfold viewRepresentation viewCrp
    rw [hc]
    change (do
      let (tables, weights) ← crpTablesWeights c
      let products ← arrayDistributions m.array tables
      let primitives ← transposeProducts products
      if ¬ ∀ p ∈ primitives, p.length = weights.length then throw .assertionError
      let observesCrp ← getViewObservesCrpVs m
      let observesData ← getViewObservesDataVs m
      pure ⟨weights, primitives, observesCrp, observesData⟩ : Except Err VsView) = _
    rw [tables_ok hinv hdne, getViewObservesCrpVs_eq hc ho hn, hdat]
    change (do
      let products ← arrayDistributions m.array (some T)
      let primitives ← transposeProducts products
      if ¬ ∀ p ∈ primitives, p.length = (T.map fun t => ((Dict.values c.data).count t : ℚ) / c.data.length).length
        then throw .assertionError
      pure ⟨T.map fun t => ((Dict.values c.data).count t : ℚ) / c.data.length, primitives,
        c.data.map fun p => (p.1, rankOf T p.2), _⟩ : Except Err VsView) = _
    rw [harr]
    change (do
      let primitives ← transposeProducts (T.map l)
      if ¬ ∀ p ∈ primitives, p.length = (T.map fun t => ((Dict.values c.data).count t : ℚ) / c.data.length).length
        then throw .assertionError
      pure ⟨T.map fun t => ((Dict.values c.data).count t : ℚ) / c.data.length, primitives,
        c.data.map fun p => (p.1, rankOf T p.2), _⟩ : Except Err VsView) = _
    rw [htr]
    change (do
      if ¬ ∀ p ∈ prims, p.length = (T.map fun t => ((Dict.values c.data).count t : ℚ) / c.data.length).length
        then throw .assertionError
      pure ⟨T.map fun t => ((Dict.values c.data).count t : ℚ) / c.data.length, prims,
        c.data.map fun p => (p.1, rankOf T p.2), _⟩ : Except Err VsView) = _
    rw [if_neg (not_not.2 hassert)]
    rfl
  have hnodup : cols.Nodup := by
    rw [hcols, viewColumns, hf.outputs]
    exact hf.nodup
  have hkeys : Dict.keys (c.data.map fun p => (p.1, rankOf T p.2)) = Dict.keys c.data := by
    simp [Dict.keys, List.map_map, Function.comp_def]
  have hvals : Dict.values (c.data.map fun p => (p.1, rankOf T p.2)) = (Dict.values c.data).map (rankOf T) := by
    simp [Dict.values, List.map_map, Function.comp_def]
  have hget : ∀ r, Dict.get? (c.data.map fun p => (p.1, rankOf T p.2)) r = (Dict.get? c.data r).map (rankOf T) := by
    intro r
    rcases e : Dict.get? c.data r with _ | t
    · rw [Dict.get?_eq_none_iff] at e
      exact (Dict.get?_eq_none_iff _ _).2 (hkeys ▸ e)
    · exact Dict.get?_of_mem (by rw [hkeys]; exact hn) (List.mem_map.2 ⟨(r, t), Dict.mem_of_get? e, rfl⟩)
  have hin : ∀ {r t}, Dict.get? c.data r = some t → t ∈ T := fun e =>
    (hTm _).2 (List.mem_map_of_mem (Dict.mem_of_get? e))
  have hidx : ∀ {t}, t ∈ T → T[T.idxOf t]? = some t := fun ht => by
    rw [List.getElem?_eq_getElem (List.idxOf_lt_length_of_mem ht), List.getElem_idxOf]
  have hfst : ∀ t ∈ T, ∀ i < cols.length, ((l t).getD i default).1 = cols.getD i 0 := fun t ht i hi => by
    have e := (htab t ht).columns
    have hi' : i < (l t).length := by rw [hlen t ht]; exact hi
    have h1 : ((l t).map Prod.fst)[i]? = cols[i]? := by rw [e]
    rw [List.getElem?_map, List.getElem?_eq_getElem hi', List.getElem?_eq_getElem hi] at h1
    simp only [List.getD, List.getElem?_eq_getElem hi', List.getElem?_eq_getElem hi, Option.getD_some]
    exact Option.some.inj h1
  refine ⟨m, _, (List.range cols.length).map fun i => (cols.getD i 0, T.map fun t => ((l t).getD i default).2), hf.eq,
    hrep, ⟨fun r => ?_, ?_, fun r hr s hs => ?_, ?_, fun r i hi => ?_, ?_, fun o ms hom => ?_⟩, ?_, ?_, ?_⟩
  · rw [hkeys]
    exact hkey r
  · rw [hkeys]
    exact hn
  · rw [hkeys] at hr hs
    obtain ⟨t, ht⟩ := Dict.exists_get?_of_mem_keys hr
    obtain ⟨u, hu⟩ := Dict.exists_get?_of_mem_keys hs
    rw [hget, hget, hcl, hcl, ht, hu]
    simp only [Option.map_some, Option.some.injEq, Val.num.injEq, Int.cast_inj]
    exact ⟨fun h => rankOf_inj (hin ht) h, fun h => by rw [h]⟩
  · have hs := sum_seated (Dict.values c.data)
    have hl0 : (c.data.length : ℚ) ≠ 0 := by
      have := List.length_pos_of_ne_nil hdne
      positivity
    have e : (T.map fun t => ((Dict.values c.data).count t : ℚ) / c.data.length).sum =
        (T.map fun t => ((Dict.values c.data).count t : ℚ)).sum / c.data.length := by
      generalize T = l
      induction l with
      | nil => simp
      | cons a l ih => rw [List.map_cons, List.sum_cons, ih, List.map_cons, List.sum_cons, add_div]
    change (T.map fun t => ((Dict.values c.data).count t : ℚ) / c.data.length).sum = 1
    rw [e, div_eq_one_iff_eq hl0]
    have hs2 := congrArg (Int.cast : Int → ℚ) hs
    rw [Int.cast_list_sum, List.map_map] at hs2
    simp only [Function.comp_def, Int.cast_natCast] at hs2
    rw [← hT] at hs2
    rw [hs2]
    simp [Dict.values]
  · change Dict.get? (c.data.map fun p => (p.1, rankOf T p.2)) r = some i at hi
    rw [hget] at hi
    obtain ⟨t, ht, rfl⟩ := Option.map_eq_some_iff.1 hi
    refine ⟨T.idxOf t, rfl, ?_⟩
    change (T.map fun t => ((Dict.values c.data).count t : ℚ) / c.data.length)[T.idxOf t]? = some
      (((Dict.values (c.data.map fun p => (p.1, rankOf T p.2))).count (rankOf T t) : ℚ) /
        (c.data.map fun p => (p.1, rankOf T p.2)).length)
    rw [hvals, count_rank fun t h => (hTm t).2 h, List.getElem?_map, hidx (hin ht), List.length_map]
    rfl
  · rw [List.map_map]
    exact (map_range_getD cols id 0).trans (List.map_id _)
  · obtain ⟨i, hi, e⟩ := List.mem_map.1 hom
    injection e with e1 e2
    subst e1 e2
    have hi := List.mem_range.1 hi
    refine ⟨by simp, fun r n hr => ?_⟩
    change Dict.get? (c.data.map fun p => (p.1, rankOf T p.2)) r = some (n : Int) at hr
    rw [hget] at hr
    obtain ⟨t, ht, e⟩ := Option.map_eq_some_iff.1 hr
    have e : T.idxOf t = n := by
      unfold rankOf at e
      exact_mod_cast e
    have htT := hin ht
    refine ⟨((l t).getD i default).2, ?_, fun b hb hbo hbr => ?_⟩
    · rw [List.getElem?_map, ← e, hidx htT]
      rfl
    · have hgd : cols.getD i 0 = cols[i] := by simp [List.getD, hi]
      rw [hgd] at hbo
      exact found (htab t htT).describes (hsingle t htT) (htab t htT).part.columns hnodup
        (holder hf h (List.getElem_mem hi) (by rw [hcl2, hcl, ht]; rfl) (htab t htT).key hb hbo hbr) hi hbo
  · change prims = _
    rw [hprims, List.map_map]
    refine List.map_congr_left fun i hi => ?_
    simp only [Function.comp, List.map_map]
    refine List.map_congr_left fun t ht => ?_
    rw [← hfst t ht i (List.mem_range.1 hi)]
    rfl
  · intro om hom
    obtain ⟨i, -, rfl⟩ := List.mem_map.1 hom
    simpa using hTne
  · intro d hd
    obtain ⟨r, hr, hd⟩ := List.mem_flatMap.1 hd
    obtain ⟨⟨o, x⟩, hkv, rfl⟩ := List.mem_map.1 hd
    have h1 := hcomp r hr
    have hne : o ≠ m.indexer := by
      rintro rfl
      exact h1.2.2.1 (List.mem_map_of_mem (f := Prod.fst) hkv)
    have h2 := (h1.2.2.2 o hne).trans (heldCell_eq (cgpmTLaws Z 2) hreg g r o)
    rw [Dict.get?_of_mem h1.2.1 hkv] at h2
    by_contra hno
    have : (cgpmTab Z 2).cell (.flexMix m : Node (Node Prim)) r o = none := by
      refine (cgpmTLaws Z 2).cell_out _ _ _ hreg ?_
      intro hmem
      have hmem : o ∈ (cgpmI 2).outputs v := by rw [hf.eq]; exact hmem
      rw [hf.outputs] at hmem
      rcases List.mem_cons.1 hmem with e' | hmem
      · exact hne e'
      · apply hno
        rw [hcols, viewColumns, hf.outputs]
        exact hmem
    exact absurd (h2.trans this) (by simp)

theorem entry_ok {schema : List String} {o : Var} {name : String} (hn : variableName schema o = .ok name)
    {ms : List Maker} (hne : ms ≠ []) :
    distributionEntry schema (ms.map fun mk => (o, mk)) = .ok (name, ms) := by
  obtain ⟨a, ms, rfl⟩ := List.exists_cons_of_ne_nil hne
  unfold distributionEntry
  change (if ¬ ∀ d ∈ (a :: ms).map (fun mk => (o, mk)), d.1 = o then _ else _) = _
  rw [if_neg (by
    rw [not_not]
    intro d hd
    obtain ⟨mk, -, rfl⟩ := List.mem_map.1 hd
    rfl), hn]
  change Except.ok _ = _
  simp [Function.comp_def]

theorem nodup_map {α β : Type} {f : α → β} {l : List α} (h : l.Nodup) (hi : ∀ a ∈ l, ∀ b ∈ l, f a = f b → a = b) :
    (l.map f).Nodup := List.Nodup.map_on (fun a ha b hb e => hi a ha b hb e) h

theorem render_ok {x : Crosscat} (h : CC Z x) {schema : List String} (hs : schema.Nodup)
    (hcols : ∀ o ∈ columns x, 0 ≤ o ∧ o.toNat < schema.length) (g : Rng)
    (hm : ∀ v ∈ x.cgpms, ∀ p ∈ primsIn 2 v, ∀ o ∈ viewColumns v, p.outputs = [o] → HasMaker p)
    (hrow : ∀ v ∈ x.cgpms, ∃ r, heldCluster v g r ≠ none)
    (hcell : ∀ v ∈ x.cgpms, ∀ r, heldCluster v g r ≠ none → ∃ o ∈ viewColumns v, heldCell (cgpmI 2) v g r o ≠ none) :
    ∃ s, render x schema = .ok s ∧ Scripted x schema g s := by
  -- the names of the columns
  set name : Var → String := fun o => schema.getD o.toNat "" with hname
  have hsch : ∀ o ∈ columns x, schema[o.toNat]? = some (name o) := fun o ho => by
    have hlt := (hcols o ho).2
    simp [hname, List.getD, hlt]
  have hvar : ∀ o ∈ columns x, variableName schema o = .ok (name o) := fun o ho => by
    unfold variableName
    rw [if_neg (not_lt.2 (hcols o ho).1), hsch o ho]
  have hinj : ∀ a ∈ columns x, ∀ b ∈ columns x, name a = name b → a = b := by
    intro a ha b hb e
    have h1 := hsch a ha
    have h2 := hsch b hb
    rw [e, ← h2] at h1
    have h3 : a.toNat = b.toNat := (List.getElem?_inj (hcols a ha).2 hs).1 h1
    rw [← Int.toNat_of_nonneg (hcols a ha).1, ← Int.toNat_of_nonneg (hcols b hb).1, h3]
  have hcn : (columns x).Nodup := by
    have := h.nodup
    rw [List.nodup_flatMap] at this
    refine List.nodup_flatMap.2 ⟨fun v hv => (this.1 v hv).sublist (List.tail_sublist _), this.2.imp fun hd => ?_⟩
    intro a ha hb
    exact hd (List.mem_of_mem_tail ha) (List.mem_of_mem_tail hb)
  -- the views
  set F : View → Except Err VsView := fun view : Node (Node Prim) => match view with
    | .flexMix m => viewRepresentation m
    | _ => .error .attributeError with hF
  have hex : ∀ v ∈ x.cgpms, ∃ (w : VsView) (mixtures : List (Var × List Maker)), F v = .ok w ∧
      Rendered v g w.weights w.observesCrp mixtures ∧
      w.distributions = mixtures.map (fun om => om.2.map fun mk => (om.1, mk)) ∧
      (∀ om ∈ mixtures, om.2 ≠ []) ∧ ∀ d ∈ w.observesData, d.2.1 ∈ viewColumns v := by
    intro v hv
    obtain ⟨m, w, mixtures, rfl, h1, h2⟩ := view_ok (h.viewReg hv) (h.views v hv) g (hm v hv) (hrow v hv) (hcell v hv)
    exact ⟨w, mixtures, h1, h2⟩
  have : Nonempty VsView := ⟨⟨[], [], [], []⟩⟩
  choose! W M hW using hex
  have hviews : x.cgpms.mapM F = .ok (x.cgpms.map W) := mapM_ok _ _ _ fun v hv => (hW v hv).1
  have hin : ∀ v ∈ x.cgpms, ∀ om ∈ M v, om.1 ∈ viewColumns v := fun v hv om hom => by
    rw [← (hW v hv).2.1.columns]
    exact List.mem_map_of_mem hom
  have hsub : ∀ v ∈ x.cgpms, ∀ o ∈ viewColumns v, o ∈ columns x := fun v hv o ho => mem_columns.2 ⟨v, hv, ho⟩
  -- the assignment
  have hidx : ∀ o ∈ columns x, ∃ k, viewIndex x [o] = .ok k ∧ ∃ v, x.cgpms[k]? = some v ∧ o ∈ viewColumns v :=
    fun o ho => viewIndex_eq h ho
  choose! K hK using hidx
  have hperm : (pySorted (columns x)).Perm (columns x) := List.perm_insertionSort _ _
  have hassign : variablesToView x = .ok ((pySorted (columns x)).map fun o => (o, K o)) := by
    unfold variablesToView
    change (do
      let idx ← (pySorted (columns x)).mapM fun output => viewIndex x [output]
      pure ((pySorted (columns x)).zip idx) : Except Err _) = _
    rw [mapM_ok _ _ K fun o ho => (hK o (hperm.mem_iff.1 ho)).1]
    change Except.ok _ = _
    congr 1
    generalize pySorted (columns x) = l
    induction l with
    | nil => rfl
    | cons a l ih => simp only [List.map_cons, List.zip_cons_cons, ih]
  set A : List (Var × Nat) := ((pySorted (columns x)).map fun o => (o, K o)).insertionSort fun a b => a.2 ≤ b.2 with hA
  have hAp : A.Perm ((columns x).map fun o => (o, K o)) :=
    (List.perm_insertionSort _ _).trans (hperm.map _)
  have hAm : ∀ a ∈ A, a.1 ∈ columns x ∧ a.2 = K a.1 := fun a ha => by
    obtain ⟨o, ho, rfl⟩ := List.mem_map.1 (hAp.mem_iff.1 ha)
    exact ⟨ho, rfl⟩
  set D : List (String × List Maker) :=
    (x.cgpms.map fun v => (M v).map fun om => (name om.1, om.2)).flatten with hD
  have hDk : Dict.keys D = (columns x).map name := by
    rw [hD, Dict.keys, List.map_flatten, List.map_map, columns, List.map_flatMap, List.flatMap_def]
    congr 1
    refine List.map_congr_left fun v hv => ?_
    simp only [Function.comp, List.map_map]
    rw [← (hW v hv).2.1.columns, List.map_map]
    rfl
  have hDn : (Dict.keys D).Nodup := by
    rw [hDk]
    exact nodup_map hcn hinj
  have hEk : Dict.keys (A.map fun a => (name a.1, a.2)) = (A.map Prod.fst).map name := by
    simp [Dict.keys, List.map_map, Function.comp_def]
  have hAf : (A.map Prod.fst).Perm (columns x) := by
    have := hAp.map Prod.fst
    rw [List.map_map] at this
    simpa [Function.comp_def] using this
  have hEn : (Dict.keys (A.map fun a => (name a.1, a.2))).Nodup := by
    rw [hEk]
    refine nodup_map (hAf.nodup_iff.2 hcn) fun a ha b hb => ?_
    exact hinj a (hAf.mem_iff.1 ha) b (hAf.mem_iff.1 hb)
  refine ⟨⟨D, A.map fun a => (name a.1, a.2), (x.cgpms.map W).map VsView.weights, (x.cgpms.map W).map VsView.observesCrp,
    (x.cgpms.map W).map fun w => w.observesData.map fun d => (d.1, name d.2.1, d.2.2)⟩, ?_, ⟨by simp, by simp, hDn, hEn, ?_⟩⟩
  · have hconv : convertTrace x = .ok (x.cgpms.map W, (pySorted (columns x)).map fun o => (o, K o)) := by
      unfold convertTrace
      change (do
        let views ← x.cgpms.mapM F
        let assignment ← variablesToView x
        pure (views, assignment) : Except Err _) = _
      rw [hviews, hassign]
      rfl
    unfold render
    rw [hconv]
    change (do
      let distributions ← (x.cgpms.map W).mapM fun v => v.distributions.mapM (distributionEntry schema)
      let entries ← A.mapM fun a => do
        let name ← variableName schema a.1
        pure (name, a.2)
      let data ← (x.cgpms.map W).mapM fun v => v.observesData.mapM fun d => do
        let name ← variableName schema d.2.1
        pure (d.1, name, d.2.2)
      pure ⟨distributions.flatten, entries, (x.cgpms.map W).map VsView.weights, (x.cgpms.map W).map VsView.observesCrp,
        data⟩ : Except Err Script) = _
    have e1 : (x.cgpms.map W).mapM (fun v => v.distributions.mapM (distributionEntry schema)) =
        .ok (x.cgpms.map fun v => (M v).map fun om => (name om.1, om.2)) := by
      rw [List.mapM_map]
      refine mapM_ok _ _ _ fun v hv => ?_
      obtain ⟨-, -, h3, h4, -⟩ := hW v hv
      simp only [Function.comp]
      rw [h3, List.mapM_map]
      exact mapM_ok _ _ _ fun om hom => entry_ok (hvar _ (hsub v hv _ (hin v hv om hom))) (h4 om hom)
    have e2 : A.mapM (fun a => do
        let name ← variableName schema a.1
        pure (name, a.2) : Var × Nat → Except Err (String × Nat)) = .ok (A.map fun a => (name a.1, a.2)) :=
      mapM_ok _ _ _ fun a ha => by rw [hvar _ (hAm a ha).1]; rfl
    have e3 : (x.cgpms.map W).mapM (fun v => v.observesData.mapM fun d => do
        let name ← variableName schema d.2.1
        pure (d.1, name, d.2.2) : VsView → Except Err (List (RowId × String × Val))) =
        .ok ((x.cgpms.map W).map fun w => w.observesData.map fun d => (d.1, name d.2.1, d.2.2)) := by
      refine mapM_ok _ _ _ fun w hw => mapM_ok _ _ _ fun d hd => ?_
      obtain ⟨v, hv, rfl⟩ := List.mem_map.1 hw
      rw [hvar _ (hsub v hv _ ((hW v hv).2.2.2.2 d hd))]
      rfl
    rw [e1, e2, e3]
    rfl
  · intro k v hk
    have hv := List.mem_of_getElem? hk
    refine ⟨(W v).weights, (W v).observesCrp, M v, by simp [hk], by simp [hk], (hW v hv).2.1, fun o ms hom => ?_⟩
    have hov := hin v hv _ hom
    have hox := hsub v hv _ hov
    refine ⟨name o, hsch o hox, ?_, ?_⟩
    · refine Dict.get?_of_mem hDn (List.mem_flatten.2 ⟨_, List.mem_map_of_mem hv, ?_⟩)
      exact List.mem_map.2 ⟨(o, ms), hom, rfl⟩
    · obtain ⟨-, v', hk', hov'⟩ := hK o hox
      have e : K o = k := index_unique h.nodup hk' hk (columns_sub hov') (columns_sub hov)
      refine Dict.get?_of_mem hEn (List.mem_map.2 ⟨(o, k), ?_, rfl⟩)
      exact hAp.mem_iff.2 (List.mem_map.2 ⟨o, hox, by rw [e]⟩)

end Cgpm2.Venture
