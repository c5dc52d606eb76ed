import Verif.Lemmas.RowTotal
import Verif.Lemmas.ViewFails
import Verif.Lemmas.Export
import Verif.Spec.Draws

/-!
# Importing the answer of the engine succeeds (helpers)
-/

namespace Cgpm2.Views
open Spec Cpp

theorem mapL_cons {σ α β : Type} {f : α → Py σ β} {a : α} {l : List α} {s s1 s2 : σ} {b : β} {bs : List β}
    (h : f a s = (.ok b, s1)) (h' : Py.mapL f l s1 = (.ok bs, s2)) :
    Py.mapL f (a :: l) s = (.ok (b :: bs), s2) := by
  rw [Py.mapL, Py.bind_apply, h]
  dsimp only
  rw [Py.bind_apply, h']
  rfl

theorem numbered_total {α : Type} {l : List α} {block : List Nat} (h : ∀ i ∈ block, i < l.length) :
    ∃ ms, block.mapM (numbered l) = .ok ms ∧ ms.length = block.length := by
  obtain ⟨ms, h1, -⟩ := mapM_total (f := numbered l) (l := block) (P := fun _ => True) fun i hi =>
    ⟨l[i]'(h i hi), by unfold numbered; rw [List.getElem?_eq_getElem (h i hi)], trivial⟩
  exact ⟨ms, h1, (mapM_ok_forall h1).length_eq.symm⟩

/-! ## Rows -/

/-- A view that can be worked on. -/
structure Open (Z : List Var) (W : RowId → Prop) (v : View) : Prop where
  reg : (cgpmTab Z 2).Reg v
  view : IsView v
  plain : ∀ o ∈ viewColumns v, o ∉ Z
  rows : ∀ r, W r → (cgpmTab Z 2).present v r

theorem Open.kin {Z : List Var} {W : RowId → Prop} {v v' : View} (h : Open Z W v) (hk : ViewKin Z v v') :
    Open Z W v' where
  reg := hk.reg
  view := isView_of_shape hk.shape hk.reg h.view
  plain o ho := h.plain o (by unfold viewColumns at ho ⊢; rwa [hk.outs] at ho)
  rows r hr := (hk.rows r).2 (h.rows r hr)

theorem rowJoins_total {Z : List Var} {W : RowId → Prop} {r0 : Int} (h0 : W (some r0)) {rs : List RowId}
    (hne : some r0 ∉ rs) (hW : ∀ r ∈ rs, W r) {v : View} (h : Open Z W v) (g : Rng) :
    ∃ us v', Py.mapL (fun rm => (setRowidComponent (cgpmI 1) false rm (some r0) :
      Py (Node (Cgpm 1) × Rng) Unit)) rs (v, g) = (.ok us, (v', g)) ∧ ViewKin Z v v' := by
  induction rs generalizing v with
  | nil => exact ⟨[], v, rfl, .refl h.reg⟩
  | cons r rs ih =>
    have hr : r ≠ some r0 := fun e => hne (by simp [e])
    obtain ⟨v1, e1⟩ := joins_total h.reg h.view h.plain (h.rows r (hW r (by simp))) hr (h.rows _ h0) g
    have k1 := (join_view h.reg h.view hr e1).1
    obtain ⟨us, v2, e2, k2⟩ := ih (fun e => hne (by simp [e])) (fun r hr => hW r (by simp [hr])) (h.kin k1)
    exact ⟨_, v2, mapL_cons e1 e2, k1.trans k2⟩

theorem moveRows_total {Z : List Var} {rowids : List RowId} (hn : rowids.Nodup) (hnone : none ∉ rowids)
    {block : List Nat} (hb : block.Nodup) (hne : block ≠ []) (hlt : ∀ i ∈ block, i < rowids.length)
    {v : View} (h : Open Z (· ∈ rowids) v) (g : Rng) :
    ∃ v', moveRows rowids block (v, g) = (.ok (), (v', g)) ∧ ViewKin Z v v' := by
  obtain ⟨ms, e1, e2⟩ := numbered_total hlt
  have hall := numbered_all e1
  have hmem : ∀ r ∈ ms, r ∈ rowids := fun r hr => by
    obtain ⟨i, -, hi⟩ := (numbered_mem hall).1 hr
    exact List.mem_of_getElem? hi
  have hnd := numbered_nodup hn hb hall
  rcases ms with _ | ⟨r0, rs⟩
  · exact absurd (List.length_eq_zero_iff.1 e2.symm) hne
  obtain ⟨k0, rfl⟩ : ∃ k, r0 = some k := by
    rcases r0 with _ | k
    · exact absurd (hmem none (by simp)) hnone
    · exact ⟨k, rfl⟩
  obtain ⟨v1, e3⟩ := own_total h.reg h.view h.plain (h.rows (some k0) (hmem (some k0) (by simp))) g
  have k1 := (own_view h.reg h.view e3).1
  obtain ⟨us, v2, e4, k2⟩ := rowJoins_total (hmem (some k0) (by simp)) (List.nodup_cons.1 hnd).1
    (fun r hr => hmem r (by simp [hr])) (h.kin k1) g
  refine ⟨v2, ?_, k1.trans k2⟩
  unfold moveRows
  rw [e1, Py.lift_bind]
  dsimp only
  rw [decide_eq_false (by simp)]
  exact (bind_run (s := (v, g)) e3).trans (bind_run (s := (v1, g)) e4)

theorem allRows_total {Z : List Var} {rowids : List RowId} (hn : rowids.Nodup) (hnone : none ∉ rowids)
    {blocks : List (List Nat)} (hb : ∀ b ∈ blocks, b.Nodup ∧ b ≠ [] ∧ ∀ i ∈ b, i < rowids.length)
    {v : View} (h : Open Z (· ∈ rowids) v) (g : Rng) :
    ∃ us v', Py.mapL (moveRows rowids) blocks (v, g) = (.ok us, (v', g)) ∧ ViewKin Z v v' := by
  induction blocks generalizing v with
  | nil => exact ⟨[], v, rfl, .refl h.reg⟩
  | cons b blocks ih =>
    obtain ⟨b1, b2, b3⟩ := hb b (by simp)
    obtain ⟨v1, e1, k1⟩ := moveRows_total hn hnone b1 b2 b3 h g
    obtain ⟨us, v2, e2, k2⟩ := ih (fun b hb' => hb b (by simp [hb'])) (h.kin k1)
    exact ⟨_, v2, mapL_cons e1 e2, k1.trans k2⟩

theorem block_good {unique : List Int → List Int} (hu : Enumerates unique) {l : List Int} {b : List Nat}
    (hb : b ∈ partitionToBlocks (unique l) l) : b.Nodup ∧ b ≠ [] ∧ ∀ i ∈ b, i < l.length := by
  obtain ⟨u, hu', rfl⟩ := mem_block.1 hb
  refine ⟨block_nodup, ?_, fun i hi => ?_⟩
  · obtain ⟨i, hi⟩ := List.mem_iff_getElem?.1 (((hu l).2 u).1 hu')
    exact List.ne_nil_of_mem (mem_zip_block.2 hi)
  · exact (List.getElem?_eq_some_iff.1 (mem_zip_block.1 hi)).1

/-! ## Columns -/

section
variable {x0 : Crosscat}

/-- The rows of the columns are among `rowids`. -/
theorem Full.bound {rowids : List RowId} (hW : Full x0 (· ∈ rowids)) {x : Crosscat} (hk : Kin x0 x) {Z : List Var}
    (h : CC Z x) {o : Var} (ho : o ∈ columns x0) (r : RowId)
    (hc : (cgpmTab Z 3).cell (whole x) r o ≠ none) : r ∈ rowids :=
  (hW.valued hk h ho r).1 ⟨o, by simp, hc⟩

theorem adds_total {rowids : List RowId} (hW : Full x0 (· ∈ rowids)) {x : Crosscat} (hk : Kin x0 x)
    {m0 : Var} (h0 : m0 ∈ columns x0) {ms : List Var} (ho : ∀ o ∈ ms, o ∈ columns x0) (g : Rng) :
    ∃ us x' g', Py.mapL (fun m => reassign m (some m0)) ms (x, g) = (.ok us, (x', g')) ∧
      Within (ms.length * rowids.length) g g' ∧
      ∀ a ∈ (cgpmI 3).outputs (whole x'), a ∈ (cgpmI 3).outputs (whole x) := by
  induction ms generalizing x g with
  | nil => exact ⟨[], x, g, rfl, Within.refl _ g, fun _ => id⟩
  | cons m ms ih =>
    obtain ⟨Z, hcc⟩ := hk.cc
    have hm := ho m (by simp)
    have hmx := hk.cols.mem_iff.2 hm
    have h0x := hk.cols.mem_iff.2 h0
    obtain ⟨x1, x1', g1, e1, e2, -⟩ := setExisting_total hcc hmx h0x g
    have e2 := e2 rowids fun r hr => hW.bound hk hcc hm r hr
    have e3 := (setExisting_full hcc hmx h0x e1).1.outs
    have e1' : setViewAssignment m (some m0) (x, g) = (.ok x1, (x1', g1)) := e1
    have hk1 := setView_kin hk hm (by simpa using h0) e1'
    obtain ⟨us, x2, g2, e4, e5, e6⟩ := ih hk1 (fun o h => ho o (by simp [h])) g1
    refine ⟨_, x2, g2, mapL_cons (reassign_run e1') e4, (e2.trans e5).mono ?_, fun a ha => e3 a (e6 a ha) (by simp)⟩
    rw [List.length_cons, Nat.add_mul]
    omega

theorem moveBlock_total {unique : List Int → List Int} (hu : Enumerates unique) {rowids : List RowId}
    (hn : rowids.Nodup) (hnone : none ∉ rowids) (hW : Full x0 (· ∈ rowids)) {x : Crosscat} (hk : Kin x0 x)
    {block : List Nat} (hb : block.Nodup) (hne : block ≠ []) (hlt : ∀ i ∈ block, i < (columns x0).length)
    {rows : List Int} (hrows : rows.length ≤ rowids.length) (g : Rng)
    (hz : drawnVar g ∉ (cgpmI 3).outputs (whole x)) :
    ∃ x' g', moveBlock unique (columns x0) rowids block rows (x, g) = (.ok (), (x', g')) ∧
      Within (block.length * rowids.length) g.next.2 g' ∧
      ∀ a ∈ (cgpmI 3).outputs (whole x'), a ∈ (cgpmI 3).outputs (whole x) ∨ a = drawnVar g := by
  obtain ⟨ms, e1, e2⟩ := numbered_total hlt
  have hall := numbered_all e1
  have hnd0 : (columns x0).Nodup := by
    obtain ⟨Z, hcc⟩ := hk.cc
    exact hk.cols.nodup_iff.1 (cc_columns_nodup hcc)
  have hmem : ∀ r ∈ ms, r ∈ columns x0 := fun r hr => by
    obtain ⟨i, -, hi⟩ := (numbered_mem hall).1 hr
    exact List.mem_of_getElem? hi
  have hnd := numbered_nodup hnd0 hb hall
  rcases ms with _ | ⟨m0, ms⟩
  · exact absurd (List.length_eq_zero_iff.1 e2.symm) hne
  have h0 := hmem m0 (by simp)
  obtain ⟨Z, hcc⟩ := hk.cc
  obtain ⟨x1, g1, e3, e4, e5⟩ := setSingleton_total hcc (hk.cols.mem_iff.2 h0) g hz
  have e4 := e4 rowids fun r hr => hW.bound hk hcc h0 r hr
  have e3' : setViewAssignment m0 none (x, g) = (.ok x1, (x, g1)) := e3
  have e3'' := reassign_run e3'
  have hk1 := setView_kin hk h0 (by simp) e3'
  obtain ⟨us, x2, g2, e6, e7, e8⟩ := adds_total hW hk1 h0 (ms := ms) (fun o h => hmem o (by simp [h])) g1
  obtain ⟨T1, hb1⟩ := start_ok hW hk (vs := []) (by simp) h0 (by simp) e3''
  obtain ⟨T, hT⟩ := adds_ok hW hb1 (fun m hm => hmem m (by simp [hm])) h0 (by simp) hnd (by simp) e6
  change Building x0 x2 _ [] (m0 :: ms) T at hT
  obtain ⟨Z2, hcc2⟩ := hT.kin.cc
  obtain ⟨k, hkT⟩ := List.mem_iff_getElem?.1 hT.mem
  have hi := viewIndex_total hcc2 (outs := m0 :: ms) (by simp) hkT (by rw [hT.cols]; exact fun _ h => h)
  have hopen : Open Z2 (· ∈ rowids) T := ⟨hcc2.viewReg hT.mem, hcc2.views T hT.mem,
    fun o ho => hcc2.plain o (mem_columns.2 ⟨T, hT.mem, ho⟩),
    fun r hr => (present_eq [] Z2 T r).1 ((hT.rows r).2 hr)⟩
  obtain ⟨us', T', e9, k9⟩ := allRows_total hn hnone (blocks := partitionToBlocks (unique rows) rows)
    (fun b hb => by
      obtain ⟨b1, b2, b3⟩ := block_good hu hb
      exact ⟨b1, b2, fun i hi => (b3 i hi).trans_le hrows⟩) hopen g2
  have hrun := moveBlock_run e1 e3'' e6 hi hkT e9
  refine ⟨_, g2, hrun, (e4.trans e7).mono ?_, fun a ha => ?_⟩
  · rw [← e2, List.length_cons, Nat.add_mul]
    omega
  · refine e5 a (e8 a ?_)
    obtain ⟨v, hv, hav⟩ := List.mem_flatMap.1 ha
    rcases List.mem_or_eq_of_mem_set hv with hv | rfl
    · exact List.mem_flatMap.2 ⟨v, hv, hav⟩
    · exact List.mem_flatMap.2 ⟨T, hT.mem, by rw [← k9.outs]; exact hav⟩

end

/-! ## The numbers drawn -/

/-- The first `N` integers that can be drawn are different, and not in `O`. -/
def Apart (N : Nat) (g : Rng) (O : List Var) : Prop :=
  (∀ n < N, drawnInt g n ∉ O) ∧ ∀ n < N, ∀ m < n, drawnInt g m ≠ drawnInt g n

theorem Apart.mono {N N' : Nat} {g : Rng} {O : List Var} (h : Apart N g O) (hN : N' ≤ N) : Apart N' g O :=
  ⟨fun n hn => h.1 n (hn.trans_le hN), fun n hn => h.2 n (hn.trans_le hN)⟩

theorem Apart.step {k N : Nat} {g g' : Rng} {O O' : List Var} (h : Apart (k + 1 + N) g O)
    (hw : Within k g.next.2 g') (hO : ∀ a ∈ O', a ∈ O ∨ a = drawnVar g) : Apart N g' O' := by
  obtain ⟨j, hj, e⟩ := hw
  have ed : ∀ n, drawnInt g' n = drawnInt g (n + j + 1) := fun n => by
    unfold drawnInt
    rw [e n]
    rfl
  refine ⟨fun n hn hm => ?_, fun n hn m hm => ?_⟩
  · rw [ed] at hm
    rcases hO _ hm with hm | hm
    · exact h.1 _ (by omega) hm
    · rw [drawnVar_eq] at hm
      exact h.2 (n + j + 1) (by omega) 0 (by omega) hm.symm
  · rw [ed, ed]
    exact h.2 _ (by omega) _ (by omega)

section
variable {x0 : Crosscat}

theorem blocks_total {unique : List Int → List Int} (hu : Enumerates unique) {rowids : List RowId}
    (hn : rowids.Nodup) (hnone : none ∉ rowids) (hW : Full x0 (· ∈ rowids))
    {L : List (List Nat × List Int)}
    (hb : ∀ br ∈ L, br.1.Nodup ∧ br.1 ≠ [] ∧ (∀ i ∈ br.1, i < (columns x0).length) ∧
      br.2.length ≤ rowids.length) {x : Crosscat} (hk : Kin x0 x) (g : Rng)
    (hz : Apart ((L.map fun br => br.1.length).sum * (rowids.length + 1)) g ((cgpmI 3).outputs (whole x))) :
    ∃ us x' g', Py.mapL (fun br : List Nat × List Int => moveBlock unique (columns x0) rowids br.1 br.2) L (x, g) =
      (.ok us, (x', g')) := by
  induction L generalizing x g with
  | nil => exact ⟨[], x, g, rfl⟩
  | cons br L ih =>
    obtain ⟨b1, b2, b3, b4⟩ := hb br (by simp)
    have hlen : 0 < br.1.length := List.length_pos_iff.2 b2
    have hz' : Apart (br.1.length * rowids.length + 1 +
        (L.map fun br => br.1.length).sum * (rowids.length + 1)) g ((cgpmI 3).outputs (whole x)) := by
      refine hz.mono ?_
      rw [List.map_cons, List.sum_cons, Nat.add_mul, Nat.mul_add br.1.length]
      omega
    obtain ⟨x1, g1, e1, e2, e3⟩ := moveBlock_total hu hn hnone hW hk b1 b2 b3 b4 g
      (by rw [drawnVar_eq]; exact hz'.1 0 (by omega))
    have hk1 := (moveBlock_ok hu hn hnone hW hk (vs := []) (by simp) b1 (by simp) e1).1
    obtain ⟨us, x2, g2, e4⟩ := ih (fun br h => hb br (by simp [h])) hk1 g1 (hz'.step e2 e3)
    exact ⟨_, x2, g2, mapL_cons e1 e4⟩

end

/-! ## The checks -/

theorem checkTypes_total {modeltypes : List CcType} {l : List CcType} {k : Nat}
    (h : ∀ (i : Nat) c, l[i]? = some c → c ≠ .other ∧ modeltypes[k + i]? = some c) :
    checkTypes modeltypes k l = .ok () := by
  induction l generalizing k with
  | nil => rfl
  | cons c l ih =>
    obtain ⟨h1, h2⟩ := h 0 c rfl
    rw [Nat.add_zero] at h2
    unfold checkTypes
    rw [h2]
    dsimp only
    rw [if_neg h1, if_neg (by simp)]
    exact ih fun i c hc => by
      have := h (i + 1) c hc
      rwa [show k + 1 + i = k + (i + 1) by omega]

theorem checkAnswer_total {Z : List Var} {x : Crosscat} (h : CC Z x) {rows : List Int} {a : Views.Answer}
    (hd : Describes x a) (hp : Partitions (columns x).length rows.length a.assignments a.viewStates a.xd) : checkAnswer x a = .ok () := by
  have : Inhabited Prim := ⟨.crp (Crp.init [] [] [] [])⟩
  have hall := fun o (ho : o ∈ columns x) => cgpmBase_column h ho
  choose! B hB1 hB2 hB3 hB4 hB5 using hall
  unfold checkAnswer
  rw [distributionOutputs_eq]
  dsimp only
  rw [mapM_ok_map _ B _ hB2]
  have htypes : checkTypes a.modeltypes 0 (((columns x).map B).map fun p => cctype p.kind) = .ok () := by
    refine checkTypes_total fun i c hc => ?_
    rw [List.getElem?_map, List.getElem?_map] at hc
    rcases ho : (columns x)[i]? with _ | o
    · rw [ho] at hc; cases hc
    rw [ho] at hc
    cases hc
    have hom := List.mem_of_getElem? ho
    rw [Nat.zero_add]
    rcases hd.types i o (B o) ho ⟨hB1 o hom, hB3 o hom⟩ with ⟨h1, h2⟩ | ⟨h1, h2⟩
    · simp [h1, h2, cctype]
    · simp [h1, h2, cctype]
  have hxd : ∀ p ∈ a.xd, (a.xd.headD []).length = p.length := by
    intro p hp'
    rw [hp.rows p hp']
    rcases hx : a.xd with _ | ⟨q, l⟩
    · rw [hx] at hp'; cases hp'
    · exact hp.rows q (by rw [hx]; simp)
  have e1 : ¬ columns x = [] := columns_ne h
  have e2 : ¬ a.names ≠ (columns x).length := not_not.2 hd.names
  have e3 : ¬ a.xd.length ≠ a.viewStates := not_not.2 hp.states.symm
  have e4 : ¬ a.assignments.length ≠ (columns x).length := not_not.2 hp.columns
  change (if columns x = [] then _ else _) = _
  rw [if_neg e1]
  rw [if_neg e2]
  rw [htypes]
  change (if ¬ ∀ p ∈ a.xd, (a.xd.headD []).length = p.length then _ else _) = _
  rw [if_neg (not_not.2 hxd)]
  rw [if_neg e3]
  rw [if_neg e4]
  rfl

/-! ## The whole -/

theorem blocks_sum {unique : List Int → List Int} (hu : Enumerates unique) (l : List Int) :
    ((partitionToBlocks (unique l) l).map List.length).sum ≤ l.length := by
  rw [← List.length_flatten]
  have hnd : (partitionToBlocks (unique l) l).flatten.Nodup :=
    List.nodup_flatten.2 ⟨fun b hb => (block_good hu hb).1, blocks_disjoint (hu l).1⟩
  have hsub : (partitionToBlocks (unique l) l).flatten ⊆ List.range l.length := fun i hi => by
    obtain ⟨b, hb, hi⟩ := List.mem_flatten.1 hi
    exact List.mem_range.2 ((block_good hu hb).2.2 i hi)
  simpa using (hnd.subperm hsub).length_le

theorem unique_length {unique : List Int → List Int} (hu : Enumerates unique) (l : List Int) :
    (unique l).length = l.dedup.length :=
  ((List.perm_ext_iff_of_nodup (hu l).1 (List.nodup_dedup l)).2 fun i => by
    rw [(hu l).2, List.mem_dedup]).length_eq

theorem rowsInOrder_lists {x : Crosscat} {rows : List Int} (h : RowsInOrder x rows) :
    ListsRows x (rows.map some) :=
  ⟨List.pairwise_map.2 (h.1.imp fun h => by simpa [Before] using h), fun r => by
    rw [h.2, List.mem_map]
    exact exists_congr fun k => and_congr_right fun _ => eq_comm⟩

theorem update_total {Z : List Var} {x : Crosscat} (h : CC Z x) {unique : List Int → List Int}
    (hu : Enumerates unique) {rows : List Int} (hrows : RowsInOrder x rows)
    (hc : Complete x fun r => ∃ k ∈ rows, r = some k)
    {ds : Dict Var (Dict RowId Val)} (hd : crosscatDataset x = .ok ds) {a : Views.Answer} (ha : Describes x a)
    (hp : Partitions (columns x).length rows.length a.assignments a.viewStates a.xd) (g : Rng)
    (hz : NoClashAmong ((columns x).length * (rows.length + 1)) g x) :
    ∃ x' g', updateCrosscat unique ds a (x, g) = (.ok (), (x', g')) := by
  obtain ⟨D, hD1, hD⟩ := crosscatDataset_eq h
  rw [hd] at hD1
  have hmap : rowidsMapping ds = .ok (rows.map some) := by
    cases hD1
    exact rowidsMapping_eq h hD (rowsInOrder_lists hrows) fun o ho r hr => hc o ho r (by
      obtain ⟨k, hk, rfl⟩ := List.mem_map.1 hr
      exact ⟨k, hk, rfl⟩)
  obtain ⟨r1, r2, r3⟩ := rows_of_dataset h hd hmap
  have hlen : (partitionToBlocks (unique a.assignments) a.assignments).length = a.xd.length := by
    rw [← hp.views, ← unique_length hu]
    simp [partitionToBlocks]
  have hfst : ((partitionToBlocks (unique a.assignments) a.assignments).zip a.xd).map Prod.fst =
      partitionToBlocks (unique a.assignments) a.assignments := by
    rw [List.map_fst_zip]
    omega
  obtain ⟨us, x', g', e⟩ := blocks_total hu r1 (by simp) r3
    (L := (partitionToBlocks (unique a.assignments) a.assignments).zip a.xd) (fun br hbr => by
      obtain ⟨m1, m2⟩ := List.of_mem_zip hbr
      obtain ⟨b1, b2, b3⟩ := block_good hu m1
      exact ⟨b1, b2, fun i hi => hp.columns ▸ b3 i hi, by rw [hp.rows _ m2]; simp⟩) (Kin.refl h) g
    (by
      refine Apart.mono (N := (columns x).length * (rows.length + 1)) hz ?_
      rw [show (fun br : List Nat × List Int => br.1.length) = List.length ∘ Prod.fst from rfl,
        ← List.map_map, hfst, List.length_map]
      exact Nat.mul_le_mul_right _ (hp.columns ▸ blocks_sum hu a.assignments))
  exact ⟨x', g', updateCrosscat_run (checkAnswer_total h ha hp) hmap hlen (by
    rw [distributionOutputs_eq]; exact e)⟩

end Cgpm2.Views
