import Verif.Lemmas.Gibbs
import Verif.Model.CppUpdate
import Verif.Spec.CppUpdate

/-!
# Importing the answer of the C++ engine (helpers)
-/

namespace Cgpm2.Views
open Spec Cpp

/-! ## Clusters of rows -/

/-- Each of the blocks is a cluster. -/
def Grouped (cl : RowId → Option Val) (RB : List (List RowId)) : Prop :=
  ∀ B ∈ RB, ∀ r ∈ B, ∀ r', cl r' = cl r ↔ r' ∈ B

theorem Grouped.own {cl cl' : RowId → Option Val} {RB : List (List RowId)} (h : Grouped cl RB) {r0 : RowId}
    (hf : ∀ B ∈ RB, r0 ∉ B) (ho : ∀ r, r ≠ r0 → cl' r = cl r) (hn : ∀ r, r ≠ r0 → cl' r ≠ cl' r0) :
    Grouped cl' ([r0] :: RB) := by
  intro B hB r hr r'
  rcases List.mem_cons.1 hB with rfl | hB'
  · rw [List.mem_singleton] at hr ⊢
    subst hr
    constructor
    · intro e
      by_contra hne
      exact hn r' hne e
    · rintro rfl; rfl
  · have hr0 : r ≠ r0 := by rintro rfl; exact hf B hB' hr
    by_cases hr' : r' = r0
    · subst hr'
      exact ⟨fun e => absurd e.symm (hn r hr0), fun e => absurd e (hf B hB')⟩
    · rw [ho r hr0, ho r' hr']
      exact h B hB' r hr r'

theorem Grouped.join {cl cl' : RowId → Option Val} {B0 : List RowId} {RB : List (List RowId)}
    (h : Grouped cl (B0 :: RB)) {r0 r1 : RowId} (h0 : r0 ∈ B0) (hf : ∀ B ∈ RB, r0 ∉ B)
    (h1 : r1 ∉ B0) (hf1 : ∀ B ∈ RB, r1 ∉ B)
    (ho : ∀ r, r ≠ r1 → cl' r = cl r) (hj : cl' r1 = cl' r0) : Grouped cl' ((B0 ++ [r1]) :: RB) := by
  have h01 : r0 ≠ r1 := by rintro rfl; exact h1 h0
  have hj' : cl' r1 = cl r0 := by rw [hj, ho r0 h01]
  intro B hB r hr r'
  rcases List.mem_cons.1 hB with rfl | hB'
  · have key : ∀ s, cl' s = cl r0 ↔ s ∈ B0 ++ [r1] := by
      intro s
      by_cases hs : s = r1
      · subst hs
        simp [hj']
      · rw [ho s hs, h B0 (by simp) r0 h0 s]
        simp [hs]
    rw [(key r).2 hr]
    exact key r'
  · have hr0 : r ≠ r1 := by rintro rfl; exact hf1 B hB' hr
    rw [ho r hr0]
    by_cases hr' : r' = r1
    · subst hr'
      rw [hj', h B (by simp [hB']) r hr r0]
      exact ⟨fun e => absurd e (hf B hB'), fun e => absurd e (hf1 B hB')⟩
    · rw [ho r' hr']
      exact h B (by simp [hB']) r hr r'

/-- The cluster of a row of a view. -/
noncomputable def clusterOf (v : View) (r : RowId) : Option Val :=
  (cgpmTab [] 2).cell v r (((cgpmI 2).outputs v).headD 0)

theorem clusterOf_eq (Z : List Var) (v : View) (r : RowId) :
    clusterOf v r = (cgpmTab Z 2).cell v r (((cgpmI 2).outputs v).headD 0) := by
  unfold clusterOf
  rw [(cellsZ [] Z 2).1]

theorem view_mixture {Z : List Var} {v : View} (h : (cgpmTab Z 2).Reg v) (hv : IsView v) :
    ∃ d z supp, Node.rowDivide v = some (.crp d) ∧ ((cgpmI 2).outputs v).headD 0 = z ∧
      IsMixture (n := 2) v z supp := by
  obtain ⟨m, p, rfl, hkind, -⟩ := hv
  obtain ⟨d, hd⟩ : ∃ d, m.rowDivide = .crp d := by
    rcases hm : m.rowDivide with d | d | d | d | d | d <;> rw [hm] at hkind <;> first | exact ⟨d, rfl⟩ | cases hkind
  have hdiv : Node.rowDivide (.flexMix m : Node (Cgpm 1)) = some (.crp d) := by
    change some m.rowDivide = _
    rw [hd]
  obtain ⟨-, -, ⟨z, supp, hz, -, hzZ, -, hm⟩, -⟩ := reg_rowDivide (n := 1) h hdiv
  refine ⟨d, z, supp, hdiv, ?_, hm⟩
  change (m.rowDivide.outputs ++ _).headD 0 = z
  rw [hd, hz]
  rfl

theorem own_view {Z : List Var} {v v' : View} (h : (cgpmTab Z 2).Reg v) (hv : IsView v) {r0 : RowId}
    {g g' : Rng} (hs : setRowidComponent (cgpmI 1) false r0 none (v, g) = (.ok (), (v', g'))) :
    ViewKin Z v v' ∧ (∀ r, r ≠ r0 → clusterOf v' r = clusterOf v r) ∧
      ∀ r, r ≠ r0 → clusterOf v' r ≠ clusterOf v' r0 := by
  have K := cgpmTLaws Z 2
  have hk := setRowid_kin h hv hs
  obtain ⟨d, z, supp, hdiv, hzo, hm⟩ := view_mixture h hv
  obtain ⟨ob, inp, c1, k, g1, -, -, -, h1, h2, h3⟩ := own_reg h hm hdiv hs
  have e1 := fun r => heldCell_eq K h (g := g) (r := r) (v := z)
  have e2 := fun r => heldCell_eq K h1 (g := g) (r := r) (v := z)
  refine ⟨hk, fun r hr => ?_, fun r hr => ?_⟩
  · have := h2.others g r z hr
    rw [e1, e2] at this
    rw [clusterOf_eq Z, clusterOf_eq Z, hk.outs, hzo]
    exact this
  · have := (h3 g).2 r hr
    rw [e2, e2] at this
    rw [clusterOf_eq Z, clusterOf_eq Z, hk.outs, hzo]
    exact this

theorem join_view {Z : List Var} {v v' : View} (h : (cgpmTab Z 2).Reg v) (hv : IsView v) {r0 : RowId}
    {r1 : Int} (hne : r0 ≠ some r1) {g g' : Rng}
    (hs : setRowidComponent (cgpmI 1) false r0 (some r1) (v, g) = (.ok (), (v', g'))) :
    ViewKin Z v v' ∧ (∀ r, r ≠ r0 → clusterOf v' r = clusterOf v r) ∧
      clusterOf v' r0 = clusterOf v' (some r1) := by
  have K := cgpmTLaws Z 2
  have hk := setRowid_kin h hv hs
  obtain ⟨d, z, supp, hdiv, hzo, hm⟩ := view_mixture h hv
  obtain ⟨ob, inp, c1, k, g1, -, -, -, h1, h2, h3⟩ := join_reg h hm hne hs
  have e1 := fun r => heldCell_eq K h (g := g) (r := r) (v := z)
  have e2 := fun r => heldCell_eq K h1 (g := g) (r := r) (v := z)
  refine ⟨hk, fun r hr => ?_, ?_⟩
  · have := h2.others g r z hr
    rw [e1, e2] at this
    rw [clusterOf_eq Z, clusterOf_eq Z, hk.outs, hzo]
    exact this
  · have := (h3 g).1
    rw [e2, e2] at this
    rw [clusterOf_eq Z, clusterOf_eq Z, hk.outs, hzo]
    exact this

/-- The rows of a block join the cluster of the first one. -/
theorem joins_view {Z : List Var} {r0 : Int} {rs : List RowId} {v v' : View} (h : (cgpmTab Z 2).Reg v)
    (hv : IsView v) {B0 : List RowId} {RB : List (List RowId)} (hg : Grouped (clusterOf v) (B0 :: RB))
    (h0 : some r0 ∈ B0) (hnd : (B0 ++ rs).Nodup) (hf : ∀ B ∈ RB, ∀ r ∈ B0 ++ rs, r ∉ B) {g g' : Rng} {us : List Unit}
    (hs : Py.mapL (fun rm => (setRowidComponent (cgpmI 1) false rm (some r0) :
      Py (Node (Cgpm 1) × Rng) Unit)) rs (v, g) = (.ok us, (v', g'))) :
    ViewKin Z v v' ∧ Grouped (clusterOf v') ((B0 ++ rs) :: RB) := by
  induction rs generalizing v g B0 us with
  | nil =>
    cases hs
    rw [List.append_nil]
    exact ⟨.refl h, hg⟩
  | cons r rs ih =>
    obtain ⟨⟨⟩, ⟨v1, g1⟩, e1, hs⟩ := run_bind hs
    obtain ⟨us', ⟨v2, g2⟩, e2, hs⟩ := run_bind hs
    cases hs
    have hr : r ∉ B0 := fun hr => (List.nodup_append.1 hnd).2.2 r hr r (by simp) rfl
    have hne : r ≠ some r0 := by rintro rfl; exact hr h0
    obtain ⟨k1, k2, k3⟩ := join_view h hv hne e1
    have hg1 : Grouped (clusterOf v1) ((B0 ++ [r]) :: RB) :=
      hg.join h0 (fun B hB => hf B hB _ (by simp [h0])) hr (fun B hB => hf B hB _ (by simp)) k2 k3
    have := ih k1.reg (isView_of_shape k1.shape k1.reg hv) hg1 (by simp [h0])
      (by rw [List.append_assoc]; exact hnd) (by rw [List.append_assoc]; exact hf) e2
    rw [List.append_assoc] at this
    exact ⟨k1.trans this.1, this.2⟩

theorem numbered_ok {α : Type} {l : List α} {i : Nat} {a : α} (h : numbered l i = .ok a) : l[i]? = some a := by
  unfold numbered at h
  rcases hi : l[i]? with _ | b <;> rw [hi] at h <;> cases h
  rfl

theorem numbered_all {α : Type} {l : List α} {block : List Nat} {ms : List α}
    (h : block.mapM (numbered l) = .ok ms) : List.Forall₂ (fun i a => l[i]? = some a) block ms :=
  (mapM_ok_forall h).imp fun _ _ => numbered_ok

theorem numbered_mem {α : Type} {l : List α} {block : List Nat} {ms : List α}
    (h : List.Forall₂ (fun i a => l[i]? = some a) block ms) {a : α} :
    a ∈ ms ↔ ∃ i ∈ block, l[i]? = some a := by
  induction h with
  | nil => simp
  | cons h1 _ ih =>
    rw [List.mem_cons, ih]
    constructor
    · rintro (rfl | ⟨i, hi, h⟩)
      · exact ⟨_, by simp, h1⟩
      · exact ⟨i, by simp [hi], h⟩
    · rintro ⟨i, hi, h⟩
      rcases List.mem_cons.1 hi with rfl | hi
      · rw [h1] at h
        exact .inl (Option.some.inj h).symm
      · exact .inr ⟨i, hi, h⟩

theorem index_inj {α : Type} {l : List α} (hn : l.Nodup) {i j : Nat} {a : α} (hi : l[i]? = some a)
    (hj : l[j]? = some a) : i = j := by
  obtain ⟨h1, e1⟩ := List.getElem?_eq_some_iff.1 hi
  obtain ⟨h2, e2⟩ := List.getElem?_eq_some_iff.1 hj
  exact (List.Nodup.getElem_inj_iff hn).1 (e1.trans e2.symm)

theorem numbered_nodup {α : Type} {l : List α} (hl : l.Nodup) {block : List Nat} (hb : block.Nodup)
    {ms : List α} (h : List.Forall₂ (fun i a => l[i]? = some a) block ms) : ms.Nodup := by
  induction h with
  | nil => exact .nil
  | cons h1 h2 ih =>
    rw [List.nodup_cons] at hb ⊢
    refine ⟨fun hm => ?_, ih hb.2⟩
    obtain ⟨j, hj, e⟩ := (numbered_mem h2).1 hm
    rw [index_inj hl h1 e] at hb
    exact hb.1 hj

/-- One block of rows. -/
theorem moveRows_ok {Z : List Var} {rowids : List RowId} (hn : rowids.Nodup) (hnone : none ∉ rowids)
    {block : List Nat} (hb : block.Nodup) {v v' : View} (h : (cgpmTab Z 2).Reg v) (hv : IsView v)
    {RB : List (List RowId)} (hg : Grouped (clusterOf v) RB)
    (hf : ∀ B ∈ RB, ∀ i ∈ block, ∀ r, rowids[i]? = some r → r ∉ B) {g g' : Rng} {u : Unit}
    (hs : moveRows rowids block (v, g) = (.ok u, (v', g'))) :
    ViewKin Z v v' ∧ ∃ ms, List.Forall₂ (fun i a => rowids[i]? = some a) block ms ∧
      Grouped (clusterOf v') (ms :: RB) := by
  unfold moveRows at hs
  obtain ⟨ms, s1, e1, hs⟩ := run_bind hs
  obtain ⟨hms, rfl⟩ := lift_ok e1
  have hall := numbered_all hms
  rcases ms with _ | ⟨r0, rs⟩
  · cases hs
  dsimp only at hs
  obtain ⟨⟨⟩, ⟨v1, g1⟩, e1, hs⟩ := run_bind hs
  obtain ⟨us, ⟨v2, g2⟩, e2, hs⟩ := run_bind hs
  cases hs
  have hmem : ∀ r ∈ r0 :: rs, r ∈ rowids := fun r hr => by
    obtain ⟨i, -, hi⟩ := (numbered_mem hall).1 hr
    exact List.mem_of_getElem? hi
  have hfr : ∀ B ∈ RB, ∀ r ∈ r0 :: rs, r ∉ B := fun B hB r hr => by
    obtain ⟨i, hi, e⟩ := (numbered_mem hall).1 hr
    exact hf B hB i hi r e
  obtain ⟨k0, rfl⟩ : ∃ k, r0 = some k := by
    rcases r0 with _ | k
    · exact absurd (hmem none (by simp)) hnone
    · exact ⟨k, rfl⟩
  rw [decide_eq_false (by simp)] at e1
  obtain ⟨k1, k2, k3⟩ := own_view h hv e1
  have hg1 := hg.own (fun B hB => hfr B hB _ (by simp)) k2 k3
  obtain ⟨q1, q2⟩ := joins_view k1.reg (isView_of_shape k1.shape k1.reg hv) hg1 (by simp)
    (numbered_nodup hn hb hall) hfr e2
  exact ⟨k1.trans q1, _, hall, q2⟩

/-- All blocks of rows. -/
theorem allRows_ok {Z : List Var} {rowids : List RowId} (hn : rowids.Nodup) (hnone : none ∉ rowids)
    {blocks : List (List Nat)} (hb : ∀ b ∈ blocks, b.Nodup) (hd : blocks.Pairwise List.Disjoint)
    {v v' : View} (h : (cgpmTab Z 2).Reg v) (hv : IsView v)
    {RB : List (List RowId)} (hg : Grouped (clusterOf v) RB)
    (hf : ∀ B ∈ RB, ∀ b ∈ blocks, ∀ i ∈ b, ∀ r, rowids[i]? = some r → r ∉ B) {g g' : Rng} {us : List Unit}
    (hs : Py.mapL (moveRows rowids) blocks (v, g) = (.ok us, (v', g'))) :
    ViewKin Z v v' ∧ ∃ RB', Grouped (clusterOf v') RB' ∧ (∀ B ∈ RB, B ∈ RB') ∧ ∀ b ∈ blocks, ∃ B ∈ RB',
      List.Forall₂ (fun i a => rowids[i]? = some a) b B := by
  induction blocks generalizing v g RB us with
  | nil =>
    cases hs
    exact ⟨.refl h, RB, hg, fun _ h => h, by simp⟩
  | cons b blocks ih =>
    obtain ⟨⟨⟩, ⟨v1, g1⟩, e1, hs⟩ := run_bind hs
    obtain ⟨us', ⟨v2, g2⟩, e2, hs⟩ := run_bind hs
    cases hs
    obtain ⟨k1, ms, hms, hg1⟩ := moveRows_ok hn hnone (hb b (by simp)) h hv hg
      (fun B hB => hf B hB b (by simp)) e1
    rw [List.pairwise_cons] at hd
    obtain ⟨q1, RB', q2, q3, q4⟩ := ih (fun b hb' => hb b (by simp [hb'])) hd.2 k1.reg
      (isView_of_shape k1.shape k1.reg hv) hg1 (fun B hB b' hb' i hi r hr hrB => by
        rcases List.mem_cons.1 hB with rfl | hB
        · obtain ⟨j, hj, e⟩ := (numbered_mem hms).1 hrB
          rw [index_inj hn hr e] at hi
          exact hd.1 b' hb' hj hi
        · exact hf B hB b' (by simp [hb']) i hi r hr hrB) e2
    refine ⟨k1.trans q1, RB', q2, fun B hB => q3 B (by simp [hB]), fun b' hb' => ?_⟩
    rcases List.mem_cons.1 hb' with rfl | hb'
    · exact ⟨ms, q3 ms (by simp), hms⟩
    · exact q4 b' hb'

/-! ## Blocks of a partition -/

theorem mem_block {unique l : List Int} {b : List Nat} :
    b ∈ partitionToBlocks unique l ↔ ∃ u ∈ unique, b = (l.zipIdx.filter fun ai => ai.1 = u).map Prod.snd := by
  unfold partitionToBlocks
  rw [List.mem_map]
  exact exists_congr fun u => and_congr_right fun _ => eq_comm

theorem mem_zip_block {l : List Int} {u : Int} {i : Nat} :
    i ∈ (l.zipIdx.filter fun ai => ai.1 = u).map Prod.snd ↔ l[i]? = some u := by
  rw [List.mem_map]
  constructor
  · rintro ⟨⟨a, j⟩, h, rfl⟩
    rw [List.mem_filter, List.mem_zipIdx_iff_getElem?] at h
    simp only [decide_eq_true_eq] at h
    rw [← h.2]
    exact h.1
  · intro h
    exact ⟨(u, i), List.mem_filter.2 ⟨List.mem_zipIdx_iff_getElem?.2 h, by simp⟩, rfl⟩

theorem block_nodup {l : List Int} {u : Int} : ((l.zipIdx.filter fun ai => ai.1 = u).map Prod.snd).Nodup := by
  have h : (l.zipIdx.map Prod.snd).Nodup := by
    rw [List.zipIdx_map_snd]
    exact List.nodup_range'
  exact h.sublist (List.filter_sublist.map _)

theorem blocks_disjoint {unique l : List Int} (hn : unique.Nodup) :
    (partitionToBlocks unique l).Pairwise List.Disjoint := by
  unfold partitionToBlocks
  rw [List.pairwise_map]
  refine hn.imp fun {a b} hab i hi hj => ?_
  rw [mem_zip_block] at hi hj
  rw [hi] at hj
  exact hab (Option.some.inj hj)

/-! ## Blocks of columns -/

section
variable {x0 : Crosscat}

/-- The columns of the CrossCat have values in the rows `W`. -/
def Full (x0 : Crosscat) (W : RowId → Prop) : Prop :=
  ∀ o ∈ columns x0, ∀ r g, heldCell (cgpmI 3) (whole x0) g r o ≠ none ↔ W r

theorem Full.valued {W : RowId → Prop} (hW : Full x0 W) {x : Crosscat} (hk : Kin x0 x) {Z : List Var}
    (h : CC Z x) {o : Var} (ho : o ∈ columns x0) (r : RowId) :
    Valued (fun r a => (cgpmTab Z 3).cell (whole x) r a) [o] r ↔ W r := by
  rw [← hW o ho r (fun _ => ⟨0, 0⟩), ← hk.cells _ _ _ ho, heldCell_eq (cgpmTLaws Z 3) h.reg]
  unfold Valued
  simp

theorem present_eq (Z Z' : List Var) (v : View) (r : RowId) :
    (cgpmTab Z 2).present v r ↔ (cgpmTab Z' 2).present v r := by rw [(cellsZ Z Z' 2).2]

/-- There is a view of exactly the columns `cs`, in this order, with the rows `W`, and the views `vs`
are still there. -/
structure Building (x0 x : Crosscat) (W : RowId → Prop) (vs : List View) (cs : List Var) (T : View) : Prop where
  kin : Kin x0 x
  mem : T ∈ x.cgpms
  cols : viewColumns T = cs
  rows : ∀ r, (cgpmTab [] 2).present T r ↔ W r
  kept : ∀ v ∈ vs, v ∈ x.cgpms

theorem reassign_ok {o0 : Var} {o1 : Option Var} {x x' : Crosscat} {g g' : Rng} {u : Unit}
    (h : reassign o0 o1 (x, g) = (.ok u, (x', g'))) :
    ∃ x'', setViewAssignment o0 o1 (x, g) = (.ok x', (x'', g')) := by
  obtain ⟨y, ⟨y1, g1⟩, e1, h⟩ := run_bind h
  cases h
  exact ⟨_, e1⟩

theorem start_ok {W : RowId → Prop} (hW : Full x0 W) {x x' : Crosscat} (hk : Kin x0 x) {vs : List View}
    (hvs : ∀ v ∈ vs, v ∈ x.cgpms) {o : Var} (ho : o ∈ columns x0) (hd : ∀ v ∈ vs, o ∉ viewColumns v)
    {g g' : Rng} {u : Unit} (h : reassign o none (x, g) = (.ok u, (x', g'))) :
    ∃ T, Building x0 x' W vs [o] T := by
  obtain ⟨x'', he⟩ := reassign_ok h
  have hk' := setView_kin hk ho (by simp) he
  obtain ⟨Z, hcc⟩ := hk.cc
  obtain ⟨z, -, ⟨T, hT, hout, hrows⟩, -, hkept⟩ := setSingleton_full hcc (hk.cols.mem_iff.2 ho) he
  refine ⟨T, hk', hT, by unfold viewColumns; rw [hout]; rfl, fun r => ?_, fun v hv => ?_⟩
  · rw [present_eq [] Z, hrows, hW.valued hk hcc ho]
  · exact hkept v (hvs v hv) (hd v hv)

theorem add_ok {W : RowId → Prop} (hW : Full x0 W) {x x' : Crosscat} {vs : List View} {cs : List Var} {T : View}
    (hb : Building x0 x W vs cs T) {o m0 : Var} (ho : o ∈ columns x0) (h0 : m0 ∈ columns x0) (hm : m0 ∈ cs)
    (hn : o ∉ cs) (hd : ∀ v ∈ vs, o ∉ viewColumns v ∧ m0 ∉ viewColumns v)
    {g g' : Rng} {u : Unit} (h : reassign o (some m0) (x, g) = (.ok u, (x', g'))) :
    ∃ T', Building x0 x' W vs (cs ++ [o]) T' := by
  obtain ⟨x'', he⟩ := reassign_ok h
  have hk' := setView_kin hb.kin ho (by simpa using h0) he
  obtain ⟨Z, hcc⟩ := hb.kin.cc
  obtain ⟨-, v1, hv1, hmv, h3⟩ := setExisting_full hcc (hb.kin.cols.mem_iff.2 ho) (hb.kin.cols.mem_iff.2 h0) he
  have : v1 = T := hcc.eq_view hv1 hb.mem (columns_sub hmv) (columns_sub (by rw [hb.cols]; exact hm))
  subst this
  rcases h3 with ⟨h3, -⟩ | ⟨-, h3⟩
  · rw [hb.cols] at h3
    exact absurd h3 hn
  · obtain ⟨T, hT, hc, hr⟩ := h3.new
    refine ⟨T, hk', hT, by rw [hc, hb.cols], fun r => ?_, fun v hv => ?_⟩
    · rw [present_eq [] Z, hr, hW.valued hb.kin hcc ho, present_eq Z [], hb.rows, or_self]
    · exact h3.kept v (hb.kept v hv) (hd v hv).1 (hd v hv).2

theorem adds_ok {W : RowId → Prop} (hW : Full x0 W) {x x' : Crosscat} {vs : List View} {cs ms : List Var} {T : View}
    (hb : Building x0 x W vs cs T) {m0 : Var} (ho : ∀ o ∈ ms, o ∈ columns x0) (h0 : m0 ∈ columns x0)
    (hm : m0 ∈ cs) (hn : (cs ++ ms).Nodup) (hd : ∀ v ∈ vs, (∀ o ∈ ms, o ∉ viewColumns v) ∧ m0 ∉ viewColumns v)
    {g g' : Rng} {us : List Unit}
    (h : Py.mapL (fun m => reassign m (some m0)) ms (x, g) = (.ok us, (x', g'))) :
    ∃ T', Building x0 x' W vs (cs ++ ms) T' := by
  induction ms generalizing x g cs T us with
  | nil => cases h; rw [List.append_nil]; exact ⟨T, hb⟩
  | cons m ms ih =>
    obtain ⟨⟨⟩, ⟨x1, g1⟩, e1, h⟩ := run_bind h
    obtain ⟨us', ⟨x2, g2⟩, e2, h⟩ := run_bind h
    cases h
    have hm' : m ∉ cs := fun h' => (List.nodup_append.1 hn).2.2 m h' m (by simp) rfl
    obtain ⟨T1, hb1⟩ := add_ok hW hb (ho m (by simp)) h0 hm hm' (fun v hv => ⟨(hd v hv).1 m (by simp), (hd v hv).2⟩) e1
    have := ih hb1 (fun o h' => ho o (by simp [h'])) (by simp [hm]) (by rw [List.append_assoc]; exact hn)
      (fun v hv => ⟨fun o h' => (hd v hv).1 o (by simp [h']), (hd v hv).2⟩) e2
    rw [List.append_assoc] at this
    exact this

/-- The view realises a block of columns and a partition of the rows. -/
structure Realised (unique : List Int → List Int) (outputs : List Var) (rowids : List RowId)
    (W : RowId → Prop) (br : List Nat × List Int) (v : View) : Prop where
  cols : List.Forall₂ (fun i a => outputs[i]? = some a) br.1 (viewColumns v)
  rows : ∀ r, (cgpmTab [] 2).present v r ↔ W r
  groups : ∃ RB, Grouped (clusterOf v) RB ∧ ∀ b ∈ partitionToBlocks (unique br.2) br.2, ∃ B ∈ RB,
    List.Forall₂ (fun i a => rowids[i]? = some a) b B

theorem moveBlock_ok {unique : List Int → List Int} (hu : Enumerates unique) {rowids : List RowId}
    (hn : rowids.Nodup) (hnone : none ∉ rowids) {W : RowId → Prop} (hW : Full x0 W) {x x' : Crosscat}
    (hk : Kin x0 x) {vs : List View} (hvs : ∀ v ∈ vs, v ∈ x.cgpms) {block : List Nat} (hb : block.Nodup)
    {rows : List Int}
    (hd : ∀ v ∈ vs, ∀ i ∈ block, ∀ o, (columns x0)[i]? = some o → o ∉ viewColumns v)
    {g g' : Rng} {u : Unit}
    (h : moveBlock unique (columns x0) rowids block rows (x, g) = (.ok u, (x', g'))) :
    Kin x0 x' ∧ ∃ T ∈ x'.cgpms, Realised unique (columns x0) rowids W (block, rows) T ∧ ∀ v ∈ vs, v ∈ x'.cgpms := by
  unfold moveBlock at h
  obtain ⟨ms, s1, e1, h⟩ := run_bind h
  obtain ⟨hms, rfl⟩ := lift_ok e1
  have hall := numbered_all hms
  rcases ms with _ | ⟨m0, ms⟩
  · cases h
  dsimp only at h
  obtain ⟨⟨⟩, ⟨x1, g1⟩, e1, h⟩ := run_bind h
  obtain ⟨us, ⟨x2, g2⟩, e2, h⟩ := run_bind h
  obtain ⟨⟨xa, ga⟩, s1, e3, h⟩ := run_bind h
  cases e3
  dsimp only at h
  obtain ⟨i, s1, e3, h⟩ := run_bind h
  obtain ⟨hi, rfl⟩ := lift_ok e3
  have hnd0 : (columns x0).Nodup := by
    obtain ⟨Z, hcc⟩ := hk.cc
    exact hk.cols.nodup_iff.1 (cc_columns_nodup hcc)
  have hmem : ∀ m ∈ m0 :: ms, m ∈ columns x0 := fun m hm => by
    obtain ⟨i, -, hi⟩ := (numbered_mem hall).1 hm
    exact List.mem_of_getElem? hi
  have hfr : ∀ v ∈ vs, ∀ m ∈ m0 :: ms, m ∉ viewColumns v := fun v hv m hm => by
    obtain ⟨i, hi, e⟩ := (numbered_mem hall).1 hm
    exact hd v hv i hi m e
  obtain ⟨T1, hb1⟩ := start_ok hW hk hvs (hmem m0 (by simp)) (fun v hv => hfr v hv m0 (by simp)) e1
  obtain ⟨T, hT⟩ := adds_ok hW hb1 (fun m hm => hmem m (by simp [hm])) (hmem m0 (by simp)) (by simp)
    (numbered_nodup hnd0 hb hall) (fun v hv => ⟨fun m hm => hfr v hv m (by simp [hm]), hfr v hv m0 (by simp)⟩) e2
  change Building x0 x2 W vs (m0 :: ms) T at hT
  obtain ⟨Z, hcc⟩ := hT.kin.cc
  obtain ⟨T', hT', hTc⟩ := viewIndex_view hcc hi (by simp) fun m hm => hT.kin.cols.mem_iff.2 (hmem m hm)
  have hTT : T' = T := hcc.eq_view (List.mem_of_getElem? hT') hT.mem (columns_sub (hTc m0 (by simp)))
    (columns_sub (by rw [hT.cols]; simp))
  subst hTT
  have hnot : ∀ v ∈ vs, v ≠ T' := by
    rintro v hv rfl
    exact hfr v hv m0 (by simp) (by rw [hT.cols]; simp)
  have hreg := hcc.viewReg hT.mem
  have hview := hcc.views T' hT.mem
  unfold onView at h
  dsimp only at h
  rw [hT'] at h
  dsimp only at h
  rcases hm : (do
      let _ ← Py.mapL (moveRows rowids) (partitionToBlocks (unique rows) rows)
      pure () : Py (View × Rng) Unit) (T', g2) with ⟨r, T2, g3⟩
  have hres : r = .ok () ∧ x' = ⟨x2.cgpms.set i T2⟩ := by
    rw [hm] at h
    cases h
    exact ⟨rfl, rfl⟩
  obtain ⟨rfl, rfl⟩ := hres
  obtain ⟨us', ⟨T3, g4⟩, e4, e5⟩ := run_bind hm
  cases e5
  have key : ∀ Z, (cgpmTab Z 2).Reg T' → IsView T' → ViewKin Z T' T2 ∧ ∃ RB', Grouped (clusterOf T2) RB' ∧
      (∀ B ∈ ([] : List (List RowId)), B ∈ RB') ∧ ∀ b ∈ partitionToBlocks (unique rows) rows, ∃ B ∈ RB',
      List.Forall₂ (fun i a => rowids[i]? = some a) b B := fun Z h1 h2 =>
    allRows_ok hn hnone (fun b hb => by
      obtain ⟨u, -, rfl⟩ := mem_block.1 hb
      exact block_nodup) (blocks_disjoint (hu rows).1) h1 h2 (by intro B hB; cases hB) (by simp) e4
  obtain ⟨k1, RB, k2, -, k3⟩ := key Z hreg hview
  refine ⟨hT.kin.replace hT' fun Z h1 h2 => (key Z h1 h2).1, T2, ?_, ⟨?_, fun r => ?_, RB, k2, k3⟩, fun v hv => ?_⟩
  · exact List.mem_iff_getElem?.2 ⟨i, by
      rw [List.getElem?_set_self (List.getElem?_eq_some_iff.1 hT').1]⟩
  · have : viewColumns T2 = m0 :: ms := by
      rw [← hT.cols]
      unfold viewColumns
      rw [k1.outs]
    rw [this]
    exact hall
  · rw [present_eq [] Z, k1.rows, present_eq Z [], hT.rows]
  · exact mem_set_of_ne (hT.kept v hv) hT' (hnot v hv)

theorem blocks_ok {unique : List Int → List Int} (hu : Enumerates unique) {rowids : List RowId}
    (hn : rowids.Nodup) (hnone : none ∉ rowids) {W : RowId → Prop} (hW : Full x0 W)
    {L : List (List Nat × List Int)} (hb : ∀ br ∈ L, br.1.Nodup)
    (hdis : (L.map Prod.fst).Pairwise List.Disjoint) {x x' : Crosscat}
    (hk : Kin x0 x) {vs : List View} (hvs : ∀ v ∈ vs, v ∈ x.cgpms)
    (hd : ∀ v ∈ vs, ∀ br ∈ L, ∀ i ∈ br.1, ∀ o, (columns x0)[i]? = some o → o ∉ viewColumns v)
    {g g' : Rng} {us : List Unit}
    (h : Py.mapL (fun br : List Nat × List Int => moveBlock unique (columns x0) rowids br.1 br.2) L (x, g) =
      (.ok us, (x', g'))) :
    Kin x0 x' ∧ (∀ v ∈ vs, v ∈ x'.cgpms) ∧
      ∀ br ∈ L, ∃ T ∈ x'.cgpms, Realised unique (columns x0) rowids W br T := by
  induction L generalizing x g vs us with
  | nil => cases h; exact ⟨hk, hvs, by simp⟩
  | cons br L ih =>
    obtain ⟨⟨⟩, ⟨x1, g1⟩, e1, h⟩ := run_bind h
    obtain ⟨us', ⟨x2, g2⟩, e2, h⟩ := run_bind h
    cases h
    rw [List.map_cons, List.pairwise_cons] at hdis
    obtain ⟨k1, T, hT, hR, hkept⟩ := moveBlock_ok hu hn hnone hW hk hvs (hb br (by simp))
      (fun v hv => hd v hv br (by simp)) e1
    have hnd0 : (columns x0).Nodup := by
      obtain ⟨Z, hcc⟩ := hk.cc
      exact hk.cols.nodup_iff.1 (cc_columns_nodup hcc)
    obtain ⟨q1, q2, q3⟩ := ih (fun b h' => hb b (by simp [h'])) hdis.2 k1 (vs := T :: vs)
      (fun v hv => by
        rcases List.mem_cons.1 hv with rfl | hv
        · exact hT
        · exact hkept v hv)
      (fun v hv br' hbr i hi o ho hov => by
        rcases List.mem_cons.1 hv with rfl | hv
        · obtain ⟨j, hj, e⟩ := (numbered_mem hR.cols).1 hov
          rw [index_inj hnd0 ho e] at hi
          exact hdis.1 _ (List.mem_map.2 ⟨br', hbr, rfl⟩) hj hi
        · exact hd v hv br' (List.mem_cons_of_mem _ hbr) i hi o ho hov) e2
    refine ⟨q1, fun v hv => q2 v (List.mem_cons_of_mem _ hv), fun br' hbr => ?_⟩
    rcases List.mem_cons.1 hbr with rfl | hbr
    · exact ⟨T, q2 T (List.mem_cons.2 (.inl rfl)), hR⟩
    · exact q3 br' hbr

end

/-! ## The data set and the rows -/

theorem foldl_set_keys {K V : Type} [DecidableEq K] (ps : List (K × V)) (d : Dict K V)
    (hd : (Dict.keys d).Nodup) :
    (Dict.keys (ps.foldl (fun d kv => Dict.set d kv.1 kv.2) d)).Nodup ∧
      ∀ k, k ∈ Dict.keys (ps.foldl (fun d kv => Dict.set d kv.1 kv.2) d) ↔
        k ∈ Dict.keys d ∨ k ∈ ps.map Prod.fst := by
  induction ps generalizing d with
  | nil => simp [hd]
  | cons p ps ih =>
    obtain ⟨h1, h2⟩ := ih (Dict.set d p.1 p.2) (Dict.nodup_keys_set d p.1 p.2 hd)
    refine ⟨h1, fun k => ?_⟩
    rw [List.foldl_cons, h2, Dict.mem_keys_set, List.map_cons, List.mem_cons]
    tauto

theorem dictZip_eq {K V : Type} [DecidableEq K] {ks : List K} {vs : List V} (hn : ks.Nodup) :
    dictZip ks vs = ks.zip vs := by
  have key : ∀ (d : Dict K V) (ks : List K) (vs : List V), ks.Nodup → (∀ k ∈ ks, k ∉ Dict.keys d) →
      (ks.zip vs).foldl (fun d kv => Dict.set d kv.1 kv.2) d = d ++ ks.zip vs := by
    intro d ks
    induction ks generalizing d with
    | nil => simp
    | cons k ks ih =>
      intro vs hn hd
      rcases vs with _ | ⟨v, vs⟩
      · simp
      · rw [List.nodup_cons] at hn
        rw [List.zip_cons_cons, List.foldl_cons, ih _ _ hn.2, Dict.set_of_not_mem _ _ _ (hd k (by simp))]
        · simp
        · intro k' hk' hm
          rcases (Dict.mem_keys_set _ _ _ _).1 hm with rfl | hm
          · exact hn.1 hk'
          · exact hd k' (by simp [hk']) hm
  have := key [] ks vs hn (by simp [Dict.keys])
  simpa [dictZip] using this

theorem dataset_column {Z : List Var} {x : Crosscat} (h : CC Z x) {o : Var} (ho : o ∈ columns x)
    {d : Dict RowId Val}
    (hd : (do
      let raw ← getDataset (n := 3) (whole x) o
      let pairs ← raw.mapM fun ro => do
        let v ← Dict.getItem ro.2 o
        pure (ro.1, v)
      pure (pairs.foldl (fun d kv => Dict.set d kv.1 kv.2) []) : Except Err (Dict RowId Val)) = .ok d) :
    (Dict.keys d).Nodup ∧ ∀ r, r ∈ Dict.keys d ↔ (cgpmTab Z 3).cell (whole x) r o ≠ none := by
  obtain ⟨l, e1, -, e3⟩ := getDataset_eq h.reg (h.mem_outputs ho)
  rw [e1] at hd
  change (do
      let pairs ← l.mapM fun ro => do
        let v ← Dict.getItem ro.2 o
        pure (ro.1, v)
      pure (pairs.foldl (fun d kv => Dict.set d kv.1 kv.2) []) : Except Err (Dict RowId Val)) = .ok d at hd
  rcases hp : (l.mapM fun ro => do
        let v ← Dict.getItem ro.2 o
        pure (ro.1, v) : Except Err (List (RowId × Val))) with e | pairs
  · rw [hp] at hd; cases hd
  rw [hp] at hd
  cases hd
  have hall := mapM_ok_forall hp
  have hfst : pairs.map Prod.fst = l.map Prod.fst := by
    clear hp e1 e3
    induction hall with
    | nil => rfl
    | @cons a b l ps h1 _ ih =>
      rw [List.map_cons, List.map_cons, ih]
      rcases hg : Dict.getItem a.2 o with e | v
      · rw [hg] at h1; cases h1
      · rw [hg] at h1; cases h1; rfl
  obtain ⟨k1, k2⟩ := foldl_set_keys pairs [] (by simp [Dict.keys])
  refine ⟨k1, fun r => ?_⟩
  rw [k2, hfst]
  simp only [Dict.keys, List.map_nil, List.not_mem_nil, false_or, List.mem_map]
  constructor
  · rintro ⟨⟨r', d⟩, hm, rfl⟩
    obtain ⟨a, ha, -⟩ := (e3 _ _).1 hm
    rw [ha]; simp
  · intro hc
    rcases hc' : (cgpmTab Z 3).cell (whole x) r o with _ | a
    · exact absurd hc' hc
    · exact ⟨(r, [(o, a)]), (e3 _ _).2 ⟨a, hc', rfl⟩, rfl⟩

theorem crosscatDataset_ok {Z : List Var} {x : Crosscat} (h : CC Z x) {ds : Dict Var (Dict RowId Val)}
    (hd : crosscatDataset x = .ok ds) :
    (∀ e ∈ ds, (Dict.keys e.2).Nodup ∧ ∀ r, r ∈ Dict.keys e.2 ↔ (cgpmTab Z 3).cell (whole x) r e.1 ≠ none) ∧
      ∀ o ∈ columns x, ∃ e ∈ ds, e.1 = o := by
  unfold crosscatDataset at hd
  dsimp only at hd
  rw [distributionOutputs_eq] at hd
  rcases hm : ((columns x).mapM fun output => do
      let raw ← getDataset (n := 3) (whole x) output
      let pairs ← raw.mapM fun ro => do
        let v ← Dict.getItem ro.2 output
        pure (ro.1, v)
      pure (pairs.foldl (fun d kv => Dict.set d kv.1 kv.2) []) :
        Except Err (List (Dict RowId Val))) with e | datasets
  · rw [hm] at hd; cases hd
  rw [hm] at hd
  cases hd
  rw [dictZip_eq (cc_columns_nodup h)]
  have hall := mapM_ok_forall hm
  have hcol : ∀ o ∈ columns x, o ∈ columns x := fun _ h => h
  revert hall hcol
  generalize hl : columns x = l
  rw [← hl]
  clear hm
  intro hall hcol
  have hcol : ∀ o ∈ l, o ∈ columns x := by rw [hl]; exact fun _ h => h
  rw [hl] at hall ⊢
  clear hl
  induction hall with
  | nil => simp
  | @cons o d l ds h1 _ ih =>
    obtain ⟨q1, q2⟩ := ih fun o ho => hcol o (by simp [ho])
    rw [List.zip_cons_cons]
    refine ⟨fun e he => ?_, fun o' ho => ?_⟩
    · rcases List.mem_cons.1 he with rfl | he
      · exact dataset_column h (hcol o (by simp)) h1
      · exact q1 e he
    · rcases List.mem_cons.1 ho with rfl | ho
      · exact ⟨(o', d), by simp, rfl⟩
      · obtain ⟨e, he, rfl⟩ := q2 o' ho
        exact ⟨e, by simp [he], rfl⟩

theorem rows_of_dataset {Z : List Var} {x : Crosscat} (h : CC Z x) {ds : Dict Var (Dict RowId Val)}
    (hd : crosscatDataset x = .ok ds) {rowids : List RowId} (hr : rowidsMapping ds = .ok rowids) :
    rowids.Nodup ∧ rowids.Pairwise (fun a b => (rowLe a b : Prop)) ∧ Full x (· ∈ rowids) := by
  obtain ⟨h1, h2⟩ := crosscatDataset_ok h hd
  rcases ds with _ | ⟨d, ds⟩
  · cases hr
  unfold rowidsMapping at hr
  dsimp only at hr
  split at hr
  · cases hr
  rename_i hn
  rw [not_not] at hn
  cases hr
  have hp := List.perm_insertionSort (fun a b : RowId => (rowLe a b : Prop)) (Dict.keys d.2)
  have hi1 : Std.Total (fun a b : RowId => (rowLe a b : Prop)) := ⟨rowLe_total⟩
  have hi2 : IsTrans RowId (fun a b => (rowLe a b : Prop)) := ⟨fun _ _ _ => rowLe_trans⟩
  refine ⟨hp.nodup_iff.2 (h1 d (by simp)).1, List.pairwise_insertionSort _ _, fun o ho r g => ?_⟩
  obtain ⟨e, he, rfl⟩ := h2 o ho
  rw [heldCell_eq (cgpmTLaws Z 3) h.reg, ← (h1 e he).2 r]
  dsimp only
  rw [hp.mem_iff]
  rcases List.mem_cons.1 he with rfl | he
  · rfl
  · exact ⟨(hn e he).2 r, (hn e he).1 r⟩

theorem rowLe_antisymm {a b : RowId} (h : rowLe a b) (h' : rowLe b a) : a = b := by
  rcases a with _ | a <;> rcases b with _ | b <;> simp_all [rowLe]
  omega

/-- The rows of the data set are those the specification lists. -/
theorem full_hasValue {x : Crosscat} (hne : columns x ≠ []) {rowids : List RowId}
    (hf : Full x (· ∈ rowids)) (r : RowId) : HasValue x (columns x) r ↔ r ∈ rowids := by
  obtain ⟨o, ho⟩ := List.exists_mem_of_ne_nil _ hne
  constructor
  · intro hv
    obtain ⟨o, ho, hc⟩ := hv fun _ => ⟨0, 0⟩
    exact (hf o ho r _).1 hc
  · exact fun hm g => ⟨o, ho, (hf o ho r g).2 hm⟩

theorem rows_eq {x : Crosscat} (hne : columns x ≠ []) {rowids : List RowId}
    (hn : rowids.Nodup) (hs : rowids.Pairwise (fun a b => (rowLe a b : Prop))) (hf : Full x (· ∈ rowids))
    {rows : List Int} (hr : RowsInOrder x rows) : rowids = rows.map some := by
  have hmem : ∀ r, r ∈ rowids ↔ r ∈ rows.map some := by
    intro r
    rw [← full_hasValue hne hf, hr.2, List.mem_map]
    exact exists_congr fun k => and_congr_right fun _ => eq_comm
  have hnd : (rows.map some).Nodup :=
    (hr.1.imp fun h => ne_of_lt h).map some fun a b h e => h (Option.some.inj e)
  have hp : rowids.Perm (rows.map some) := (List.perm_ext_iff_of_nodup hn hnd).2 hmem
  have hs' : (rows.map some).Pairwise (fun a b => (rowLe a b : Prop)) :=
    List.pairwise_map.2 (hr.1.imp fun h => by simpa [rowLe] using le_of_lt h)
  exact hp.eq_of_pairwise (fun a b _ _ h h' => rowLe_antisymm h h') hs hs'

theorem checkAnswer_ok {x : Crosscat} {a : Answer} (h : checkAnswer x a = .ok ()) :
    a.assignments.length = (columns x).length := by
  by_contra hn
  unfold checkAnswer at h
  rw [distributionOutputs_eq] at h
  dsimp only at h
  rcases h1 : ((columns x).mapM fun output => cgpmBase (n := 3) (whole x) output) with e | bases
  · rw [h1] at h; cases h
  rw [h1] at h
  simp only [if_pos hn] at h
  simp only [bind, Except.bind, throw, throwThe, MonadExceptOf.throw] at h
  repeat' split at h
  all_goals contradiction

/-- What `_get_crosscat_updated` does when it returns. -/
theorem update_ok {Z : List Var} {x x' : Crosscat} (h : CC Z x) {unique : List Int → List Int}
    (hu : Enumerates unique) {rows : List Int} (hrows : RowsInOrder x rows)
    {ds : Dict Var (Dict RowId Val)} (hd : crosscatDataset x = .ok ds) {a : Answer} {g g' : Rng}
    (he : updateCrosscat unique ds a (x, g) = (.ok (), (x', g'))) :
    a.assignments.length = (columns x).length ∧ (unique a.assignments).length = a.xd.length ∧ Kin x x' ∧
      ∀ (k : Nat) u part, (unique a.assignments)[k]? = some u → a.xd[k]? = some part → ∃ T ∈ x'.cgpms,
        Realised unique (columns x) (rows.map some) (· ∈ rows.map some)
          ((a.assignments.zipIdx.filter fun ai => ai.1 = u).map Prod.snd, part) T := by
  unfold updateCrosscat at he
  obtain ⟨⟨xa, ga⟩, s1, e1, he⟩ := run_bind he
  cases e1
  dsimp only at he
  obtain ⟨⟨⟩, s1, e1, he⟩ := run_bind he
  obtain ⟨hcheck, rfl⟩ := lift_ok e1
  obtain ⟨rowids, s1, e1, he⟩ := run_bind he
  obtain ⟨hmap, rfl⟩ := lift_ok e1
  obtain ⟨⟨⟩, s1, e1, he⟩ := run_bind he
  obtain ⟨us, ⟨x1, g1⟩, e2, he⟩ := run_bind he
  cases he
  rw [Py.assert_apply] at e1
  split at e1
  swap
  · cases e1
  rename_i hlen
  cases e1
  have hlen' : (unique a.assignments).length = a.xd.length := by
    rw [← hlen]; simp [partitionToBlocks]
  have hcheck' : a.assignments.length = (columns x).length := checkAnswer_ok hcheck
  have hne : columns x ≠ [] := by
    intro e
    obtain ⟨v, hv⟩ := List.exists_mem_of_ne_nil _ h.reg.2.2
    have := h.nonempty hv
    obtain ⟨o, ho⟩ := List.exists_mem_of_ne_nil _ this
    have := mem_columns.2 ⟨v, hv, ho⟩
    rw [e] at this
    cases this
  obtain ⟨r1, r2, r3⟩ := rows_of_dataset h hd hmap
  have hre := rows_eq hne r1 r2 r3 hrows
  subst hre
  have hfst : ((partitionToBlocks (unique a.assignments) a.assignments).zip a.xd).map Prod.fst =
      partitionToBlocks (unique a.assignments) a.assignments := by
    rw [List.map_fst_zip]
    omega
  obtain ⟨q1, -, q3⟩ := blocks_ok hu r1 (by simp) r3 (fun br hbr => by
      obtain ⟨u, -, e⟩ := mem_block.1 (List.of_mem_zip hbr).1
      rw [e]
      exact block_nodup) (by rw [hfst]; exact blocks_disjoint (hu _).1) (Kin.refl h) (vs := []) (by simp)
    (by simp) e2
  refine ⟨hcheck', hlen', q1, fun k u part hk hp => q3 _ ?_⟩
  refine List.mem_iff_getElem?.2 ⟨k, ?_⟩
  rw [List.getElem?_zip_eq_some]
  refine ⟨?_, hp⟩
  unfold partitionToBlocks
  rw [List.getElem?_map, hk]
  rfl

theorem bind_run {σ α β : Type} {m : Py σ α} {f : α → Py σ β} {s s' : σ} {a : α}
    (h : m s = (.ok a, s')) : (m >>= f) s = f a s' := by
  rw [Py.bind_apply, h]

theorem mapL_one {σ α β : Type} {f : α → Py σ β} {a : α} {s s' : σ} {b : β}
    (h : f a s = (.ok b, s')) : Py.mapL f [a] s = (.ok [b], s') := by
  rw [Py.mapL, Py.bind_apply, h]
  rfl

theorem mapL_two {σ α β : Type} {f : α → Py σ β} {a a' : α} {s s' s'' : σ} {b b' : β}
    (h : f a s = (.ok b, s')) (h' : f a' s' = (.ok b', s'')) :
    Py.mapL f [a, a'] s = (.ok [b, b'], s'') := by
  rw [Py.mapL, Py.bind_apply, h]
  dsimp only
  rw [Py.bind_apply, mapL_one h']
  rfl

theorem reassign_run {x x' s : Crosscat} {o0 : Var} {o1 : Option Var} {g g' : Rng}
    (h : setViewAssignment o0 o1 (x, g) = (.ok x', (s, g'))) :
    reassign o0 o1 (x, g) = (.ok (), (x', g')) := by
  exact bind_run h

theorem moveBlock_run {unique : List Int → List Int} {outputs : List Var} {rowids : List RowId}
    {block : List Nat} {rows : List Int} {m0 : Var} {ms : List Var} {x x1 x2 : Crosscat} {g g1 g2 g3 : Rng}
    {us : List Unit} {i : Nat} {v v' : View} {us' : List Unit}
    (hm : block.mapM (numbered outputs) = .ok (m0 :: ms))
    (h1 : reassign m0 none (x, g) = (.ok (), (x1, g1)))
    (h2 : Py.mapL (fun m => reassign m (some m0)) ms (x1, g1) = (.ok us, (x2, g2)))
    (hi : viewIndex x2 (m0 :: ms) = .ok i) (hv : x2.cgpms[i]? = some v)
    (h3 : Py.mapL (moveRows rowids) (partitionToBlocks (unique rows) rows) (v, g2) = (.ok us', (v', g3))) :
    moveBlock unique outputs rowids block rows (x, g) = (.ok (), (⟨x2.cgpms.set i v'⟩, g3)) := by
  unfold moveBlock
  rw [hm, Py.lift_bind]
  dsimp only
  rw [Py.bind_apply, h1]
  dsimp only
  rw [Py.bind_apply, h2]
  dsimp only
  rw [Py.get_bind]
  dsimp only
  rw [hi, Py.lift_bind]
  dsimp only
  unfold onView
  dsimp only
  rw [hv]
  dsimp only
  rw [Py.bind_apply, h3]
  rfl

theorem updateCrosscat_run {unique : List Int → List Int} {observations : Dict Var (Dict RowId Val)}
    {a : Views.Answer} {x x' : Crosscat} {g g' : Rng} {rowids : List RowId} {us : List Unit}
    (hc : checkAnswer x a = .ok ()) (hr : rowidsMapping observations = .ok rowids)
    (hl : (partitionToBlocks (unique a.assignments) a.assignments).length = a.xd.length)
    (hm : Py.mapL (fun br : List Nat × List Int => moveBlock unique (distributionOutputs x) rowids br.1 br.2)
      ((partitionToBlocks (unique a.assignments) a.assignments).zip a.xd) (x, g) = (.ok us, (x', g'))) :
    updateCrosscat unique observations a (x, g) = (.ok (), (x', g')) := by
  unfold updateCrosscat
  rw [Py.get_bind]
  dsimp only
  rw [hc, Py.lift_bind]
  dsimp only
  rw [hr, Py.lift_bind]
  dsimp only
  rw [Py.bind_apply, Py.assert_apply, if_pos hl]
  dsimp only
  rw [Py.bind_apply, hm]
  rfl

end Cgpm2.Views
