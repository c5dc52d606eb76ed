import Verif.Model.Render
import Verif.Spec.Render
import Verif.Lemmas.CrpSupport

/-!
# Rendered observations (helpers)
-/

namespace Cgpm2
open Spec

theorem mapM_ok_map {α β : Type} (f : α → Except Err β) (g : α → β) (l : List α)
    (h : ∀ a ∈ l, f a = .ok (g a)) : l.mapM f = .ok (l.map g) := by
  induction l with
  | nil => rfl
  | cons a l ih =>
    rw [List.mapM_cons, h a (by simp), ih fun b hb => h b (by simp [hb])]
    rfl

/-- Numbering the entries of a list. -/
theorem get?_zipIdx {K V : Type} [DecidableEq K] (f : Nat → V) (ks : List K) (j : Nat) {k : K}
    (hk : k ∈ ks) :
    Dict.get? (((ks.zipIdx j).map fun ti => (ti.1, f ti.2)) : Dict K V) k =
      some (f (ks.idxOf k + j)) := by
  induction ks generalizing j with
  | nil => simp at hk
  | cons a ks ih =>
    rw [List.zipIdx_cons, List.map_cons, Dict.get?_cons]
    by_cases h : a = k
    · subst h
      simp
    · rw [if_neg h, ih (j + 1) ((List.mem_cons.1 hk).resolve_left fun e => h e.symm)]
      rw [List.idxOf_cons_ne _ h]
      congr 2
      omega

theorem mem_sortedSet (l : List Int) (x : Int) : x ∈ sortedSet l ↔ x ∈ l := by
  rw [sortedSet, Crp.mem_pySorted, List.mem_dedup]

theorem sortedSet_increasing (l : List Int) : (sortedSet l).Pairwise (· < ·) := by
  have h1 : (sortedSet l).Pairwise (· ≤ ·) := List.pairwise_insertionSort _ _
  have h2 : (sortedSet l).Nodup := (List.perm_insertionSort _ _).nodup_iff.2 (List.nodup_dedup l)
  exact h1.imp₂ (fun a b h h' => lt_of_le_of_ne h h') h2

theorem idxOf_lt_iff {l : List Int} (h : l.Pairwise (· < ·)) {x y : Int} (hx : x ∈ l) (hy : y ∈ l) :
    l.idxOf x < l.idxOf y ↔ x < y := by
  have key : ∀ x ∈ l, ∀ y ∈ l, l.idxOf x < l.idxOf y → x < y := by
    intro x hx y hy hlt
    have := List.pairwise_iff_getElem.1 h _ _ (List.idxOf_lt_length_of_mem hx)
      (List.idxOf_lt_length_of_mem hy) hlt
    simpa using this
  constructor
  · exact key x hx y hy
  · intro hlt
    rcases Nat.lt_trichotomy (l.idxOf x) (l.idxOf y) with h' | h' | h'
    · exact h'
    · have := List.idxOf_inj hx |>.1 h'
      omega
    · have := key y hy x hx h'
      omega

/-- The number of a table. -/
def rankOf (ks : List Int) (t : Int) : Int := (ks.idxOf t : Int)

theorem rankOf_surj {ks : List Int} (hn : ks.Nodup) {t m : Int} (ht : t ∈ ks) (h0 : 0 ≤ m)
    (hm : m < rankOf ks t) : ∃ t' ∈ ks, rankOf ks t' = m := by
  have hl := List.idxOf_lt_length_of_mem ht
  have : m.toNat < ks.length := by unfold rankOf at hm; omega
  refine ⟨ks[m.toNat], List.getElem_mem this, ?_⟩
  rw [rankOf, hn.idxOf_getElem _ this]
  omega

theorem rankOf_inj {ks : List Int} {s t : Int} (hs : s ∈ ks) (h : rankOf ks s = rankOf ks t) :
    s = t := by
  refine (List.idxOf_inj hs).1 ?_
  unfold rankOf at h
  omega

theorem any_keys {o : Var} (ts : List Int) :
    (ts.map fun t => ([(o, t)] : Dict Var Int)).any (fun d => Dict.keys d ≠ [o]) = false := by
  rw [List.any_eq_false]
  intro d hd
  obtain ⟨t, -, rfl⟩ := List.mem_map.1 hd
  simp

theorem firstKey_eq {o : Var} {ts : List Int} (h : ts ≠ []) :
    firstKey (ts.map fun t => ([(o, t)] : Dict Var Int)) = .ok o := by
  obtain ⟨t, ts, rfl⟩ := List.exists_cons_of_ne_nil h
  rfl

theorem reindex_eq (o : Var) {ts : List Int} (h : ts ≠ []) :
    reindexCrpObserves (ts.map fun t => [(o, t)]) =
      .ok ((ts.map (rankOf (sortedSet ts))).map fun t => [(o, t)]) := by
  unfold reindexCrpObserves
  rw [firstKey_eq h]
  change (if _ then _ else _ : Except Err _) = _
  have ha := mapM_ok_map (firstItem (α := Var × Int)) (fun d => d.headD (0, 0)) (ts.map fun t => ([(o, t)] : Dict Var Int))
    (fun d hd => by obtain ⟨t, -, rfl⟩ := List.mem_map.1 hd; rfl)
  rw [any_keys]
  simp only [Bool.false_eq_true, if_false]
  rw [ha]
  change List.mapM _ _ = _
  rw [mapM_ok_map _ (fun a : Var × Int => ([(a.1, rankOf (sortedSet ts) a.2)] : Dict Var Int))]
  · simp only [List.map_map]
    congr 1
  · intro a ha
    obtain ⟨t, ht, rfl⟩ : ∃ t ∈ ts, a = (o, t) := by
      simpa [List.map_map, eq_comm] using ha
    have hm : ((ts.map fun t => ([(o, t)] : Dict Var Int)).map fun d => d.headD (0, 0)).map
        (fun a => a.2) = ts := by simp [List.map_map, Function.comp_def]
    simp only [hm]
    rw [Dict.getItem_ok (get?_zipIdx (fun n : Nat => (n : Int)) (sortedSet ts) 0
      ((mem_sortedSet _ _).2 ht))]
    rfl

/-! ## Grouping -/

theorem filter_append_perm' {α : Type} (p : α → Bool) (l : List α) :
    (l.filter p ++ l.filter fun a => !p a).Perm l := List.filter_append_perm p l

theorem flatMap_filter_perm {α K : Type} [DecidableEq K] (f : α → K) (ks : List K) (hn : ks.Nodup)
    (l : List α) (h : ∀ a ∈ l, f a ∈ ks) :
    (ks.flatMap fun k => l.filter fun a => decide (f a = k)).Perm l := by
  induction ks generalizing l with
  | nil =>
    rcases l with _ | ⟨a, l⟩
    · simp
    · simpa using h a (by simp)
  | cons k ks ih =>
    rw [List.flatMap_cons]
    rw [List.nodup_cons] at hn
    refine List.Perm.trans (List.Perm.append_left _ ?_)
      (filter_append_perm' (fun a => decide (f a = k)) l)
    have := ih hn.2 (l.filter fun a => !decide (f a = k)) (fun a ha => by
      rw [List.mem_filter] at ha
      have h1 := h a ha.1
      have h2 : f a ≠ k := by simpa using ha.2
      exact (List.mem_cons.1 h1).resolve_left h2)
    refine List.Perm.trans (List.Perm.of_eq ?_) this
    have hcongr : ∀ k' ∈ ks, (l.filter fun a => decide (f a = k')) =
        (l.filter fun a => !decide (f a = k)).filter fun a => decide (f a = k') := by
      intro k' hk'
      rw [List.filter_filter]
      apply List.filter_congr
      intro a _
      by_cases h1 : f a = k'
      · have : f a ≠ k := fun h2 => hn.1 (by rw [← h2, h1]; exact hk')
        simp [h1]
        rw [← h1]; exact this
      · simp [h1]
    rw [List.flatMap_congr hcongr]

theorem flatMap_filter_sorted {α : Type} (f : α → Int) (ks : List Int) (hs : ks.Pairwise (· < ·))
    (l : List α) :
    (ks.flatMap fun k => l.filter fun a => decide (f a = k)).Pairwise fun a b => f a ≤ f b := by
  induction ks with
  | nil => simp
  | cons k ks ih =>
    rw [List.pairwise_cons] at hs
    rw [List.flatMap_cons, List.pairwise_append]
    refine ⟨?_, ih hs.2, ?_⟩
    · apply List.Pairwise.imp_of_mem (R := fun _ _ => True)
      · intro a b ha hb _
        have h1 : f a = k := by simpa using (List.mem_filter.1 ha).2
        have h2 : f b = k := by simpa using (List.mem_filter.1 hb).2
        rw [h1, h2]
      · exact List.pairwise_of_forall fun _ _ => trivial
    · intro a ha b hb
      have h1 : f a = k := by simpa using (List.mem_filter.1 ha).2
      obtain ⟨k', hk', hb⟩ := List.mem_flatMap.1 hb
      have h2 : f b = k' := by simpa using (List.mem_filter.1 hb).2
      rw [h1, h2]
      exact (hs.1 k' hk').le

theorem flatMap_filter_stable {α K : Type} [DecidableEq K] (f : α → K) (ks : List K) (hn : ks.Nodup)
    (l : List α) (k : K) (hk : k ∈ ks) :
    (ks.flatMap fun k => l.filter fun a => decide (f a = k)).filter (fun a => decide (f a = k)) =
      l.filter fun a => decide (f a = k) := by
  induction ks with
  | nil => simp at hk
  | cons k' ks ih =>
    rw [List.nodup_cons] at hn
    rw [List.flatMap_cons, List.filter_append, List.filter_filter]
    by_cases h : k = k'
    · subst h
      have : (ks.flatMap fun k => l.filter fun a => decide (f a = k)).filter
          (fun a => decide (f a = k)) = [] := by
        rw [List.filter_eq_nil_iff]
        intro a ha
        obtain ⟨k', hk', ha⟩ := List.mem_flatMap.1 ha
        have : f a = k' := by simpa using (List.mem_filter.1 ha).2
        simp only [decide_eq_true_eq]
        rintro rfl
        exact hn.1 (this ▸ hk')
      rw [this, List.append_nil]
      simp
    · rw [ih hn.2 ((List.mem_cons.1 hk).resolve_left h)]
      have : (l.filter fun a => decide (f a = k) && decide (f a = k')) = [] := by
        rw [List.filter_eq_nil_iff]
        intro a _
        simp only [Bool.and_eq_true, decide_eq_true_eq, not_and]
        rintro h1 h2
        exact h (h1.symm.trans h2)
      rw [this, List.nil_append]

theorem groupRowids_spec (o : Var) (ps : List (RowId × Int)) (groups : Dict Int (List RowId))
    (hn : (Dict.keys groups).Nodup) :
    ∃ g, groupRowids o (ps.map fun p => (p.1, [(o, p.2)])) groups = .ok g ∧
      (Dict.keys g).Nodup ∧ (∀ t, t ∈ Dict.keys g ↔ t ∈ Dict.keys groups ∨ t ∈ ps.map Prod.snd) ∧
      ∀ t, (Dict.get? g t).getD [] = (Dict.get? groups t).getD [] ++
        ((ps.filter fun p => decide (p.2 = t)).map Prod.fst) := by
  induction ps generalizing groups with
  | nil => exact ⟨groups, rfl, hn, by simp, by simp⟩
  | cons p ps ih =>
    obtain ⟨r, t⟩ := p
    set g1 := if Dict.has groups t then groups else Dict.set groups t [] with hg1
    have hget : Dict.get? g1 t = some ((Dict.get? groups t).getD []) := by
      rw [hg1]
      by_cases h : Dict.has groups t = true
      · rw [if_pos h]
        rw [Dict.has] at h
        obtain ⟨v, hv⟩ := Option.isSome_iff_exists.1 h
        rw [hv]; rfl
      · rw [if_neg h, Dict.get?_set, if_pos rfl]
        rw [Dict.has] at h
        rw [Option.not_isSome_iff_eq_none.1 h]; rfl
    have hn1 : (Dict.keys g1).Nodup := by
      rw [hg1]
      split
      · exact hn
      · exact Dict.nodup_keys_set _ _ _ hn
    have hk1 : ∀ s, s ∈ Dict.keys g1 ↔ s ∈ Dict.keys groups ∨ s = t := by
      intro s
      rw [hg1]
      split
      · rename_i h
        rw [Dict.has_iff] at h
        constructor
        · exact .inl
        · rintro (h' | rfl)
          · exact h'
          · exact h
      · rw [Dict.mem_keys_set]
        tauto
    have hne : ∀ s, s ≠ t → Dict.get? g1 s = Dict.get? groups s := by
      intro s hs
      rw [hg1]
      split
      · rfl
      · rw [Dict.get?_set, if_neg (fun e => hs e.symm)]
    obtain ⟨g, h1, h2, h3, h4⟩ := ih (Dict.set g1 t ((Dict.get? groups t).getD [] ++ [r]))
      (Dict.nodup_keys_set _ _ _ hn1)
    refine ⟨g, ?_, h2, ?_, ?_⟩
    · rw [List.map_cons, groupRowids]
      have : Dict.getItem ([(o, t)] : Dict Var Int) o = .ok t := by simp [Dict.getItem, Dict.get?]
      rw [this]
      change (do let l ← Dict.getItem g1 t; groupRowids o _ (Dict.set g1 t (l ++ [r]))) = _
      rw [Dict.getItem_ok hget]
      exact h1
    · intro s
      rw [h3 s, Dict.mem_keys_set, hk1]
      simp only [List.map_cons, List.mem_cons]
      tauto
    · intro s
      rw [h4 s, Dict.get?_set]
      by_cases hs : t = s
      · subst hs
        simp
      · rw [if_neg hs, hne s (fun e => hs e.symm)]
        simp [hs]

/-- The pairs of row and table in the order of the tables. -/
def byTable (ps : List (RowId × Int)) : List (RowId × Int) :=
  (sortedSet (ps.map Prod.snd)).flatMap fun t => ps.filter fun p => decide (p.2 = t)

theorem pySorted_eq_of_perm {a b : List Int} (h : a.Perm b) : pySorted a = pySorted b :=
  List.Perm.eq_of_pairwise (le := (· ≤ ·)) (fun _ _ _ _ h h' => le_antisymm h h')
    (List.pairwise_insertionSort _ _) (List.pairwise_insertionSort _ _)
    (((List.perm_insertionSort _ _).trans h).trans (List.perm_insertionSort _ _).symm)

theorem sorted_eq (o : Var) {ps : List (RowId × Int)} (h : ps ≠ []) :
    getSortedRowids (ps.map Prod.fst) ((ps.map Prod.snd).map fun t => [(o, t)]) =
      .ok ((byTable ps).map Prod.fst) := by
  unfold getSortedRowids
  rw [firstKey_eq (by simpa using h)]
  change (if _ then _ else _ : Except Err _) = _
  rw [any_keys]
  simp only [Bool.false_eq_true, if_false]
  rw [if_neg (by simp)]
  have hz : (ps.map Prod.fst).zip ((ps.map Prod.snd).map fun t => ([(o, t)] : Dict Var Int)) =
      ps.map fun p => (p.1, [(o, p.2)]) := by
    rw [List.map_map, List.zip_map']
    rfl
  rw [hz]
  obtain ⟨g, h1, h2, h3, h4⟩ := groupRowids_spec o ps [] (by simp)
  rw [h1]
  change (do let ls ← List.mapM _ _; pure (List.flatten ls) : Except Err (List RowId)) = _
  rw [mapM_ok_map _ (fun t => (Dict.get? g t).getD [])]
  · change Except.ok _ = _
    congr 1
    have hk : pySorted (Dict.keys g) = sortedSet (ps.map Prod.snd) := by
      rw [sortedSet]
      apply pySorted_eq_of_perm
      rw [List.perm_ext_iff_of_nodup h2 (List.nodup_dedup _)]
      intro t
      rw [h3 t, List.mem_dedup]
      simp
    rw [hk, byTable, ← List.flatMap_def, List.map_flatMap]
    apply List.flatMap_congr
    intro t _
    rw [h4 t]
    simp
  · intro t ht
    have ht : t ∈ Dict.keys g := (Crp.mem_pySorted _ _).1 ht
    obtain ⟨v, hv⟩ := Dict.exists_get?_of_mem_keys ht
    rw [Dict.getItem_ok hv, hv]
    rfl

theorem byTable_perm (ps : List (RowId × Int)) : (byTable ps).Perm ps :=
  flatMap_filter_perm Prod.snd _ ((sortedSet_increasing _).imp fun h => h.ne) _ fun _ hp =>
    (mem_sortedSet _ _).2 (List.mem_map_of_mem hp)

theorem byTable_sorted (ps : List (RowId × Int)) : (byTable ps).Pairwise fun a b => a.2 ≤ b.2 :=
  flatMap_filter_sorted Prod.snd _ (sortedSet_increasing _) _

theorem byTable_stable (ps : List (RowId × Int)) (t : Int) :
    (byTable ps).filter (fun p => decide (p.2 = t)) = ps.filter fun p => decide (p.2 = t) := by
  by_cases ht : t ∈ ps.map Prod.snd
  · exact flatMap_filter_stable Prod.snd _ ((sortedSet_increasing _).imp fun h => h.ne) _ t
      ((mem_sortedSet _ _).2 ht)
  · have : ∀ l : List (RowId × Int), (∀ p ∈ l, p ∈ ps) → l.filter (fun p => decide (p.2 = t)) = [] := by
      intro l hl
      rw [List.filter_eq_nil_iff]
      intro p hp
      simp only [decide_eq_true_eq]
      rintro rfl
      exact ht (List.mem_map_of_mem (hl p hp))
    rw [this _ fun _ hp => (byTable_perm ps).mem_iff.1 hp, this ps fun _ hp => hp]

end Cgpm2

namespace Cgpm2
open Spec

/-! ## Replaying on a CRP -/

theorem seat_append (o : Var) (rest done : List (RowId × Int)) (c : Crp) (hI : c.Inv)
    (ho : c.outputs = [o]) (hd : c.data = done) (hn : (Dict.keys (done ++ rest)).Nodup)
    (hs : (done ++ rest).Pairwise fun a b => a.2 ≤ b.2)
    (hg : NoGaps ((done ++ rest).map Prod.snd)) :
    ∃ c', seat o rest c = (.ok (), c') ∧ c'.data = done ++ rest := by
  induction rest generalizing done c with
  | nil => exact ⟨c, rfl, by simpa using hd⟩
  | cons p rest ih =>
    obtain ⟨r, t⟩ := p
    have hr : r ∉ Dict.keys c.data := by
      rw [hd]
      intro h
      rw [Dict.keys_append, List.nodup_append] at hn
      exact hn.2.2 r h r (by simp) rfl
    rw [List.pairwise_append] at hs
    obtain ⟨ht0, hbelow⟩ := hg t (by simp)
    have hsup : t ∈ c.support := by
      rw [Crp.mem_support_iff hI, hd]
      by_cases hmem : t ∈ Dict.values done
      · exact .inl hmem
      · right
        have hle : ∀ x ∈ Dict.values done, x < t := by
          intro x hx
          obtain ⟨q, hq, rfl⟩ := List.mem_map.1 hx
          have h1 := hs.2.2 q hq (r, t) (by simp)
          have h2 : q.2 ≠ t := fun e => hmem (e ▸ hx)
          exact lt_of_le_of_ne h1 h2
        by_cases h0 : t = 0
        · left
          refine ⟨?_, h0⟩
          rcases hv : Dict.values done with _ | ⟨x, xs⟩
          · rfl
          · obtain ⟨q, hq, hx⟩ := List.mem_map.1 (show x ∈ Dict.values done by rw [hv]; simp)
            have := hle x (by rw [hv]; simp)
            have h3 := (hg q.2 (List.mem_map_of_mem (by simp [hq]))).1
            rw [hx] at h3
            omega
        · right
          refine ⟨?_, hle⟩
          have := hbelow (t - 1) (by omega) (by omega)
          rw [List.map_append, List.mem_append] at this
          rcases this with h | h
          · exact h
          · exfalso
            rw [List.map_cons, List.mem_cons] at h
            rcases h with h | h
            · simp only at h; omega
            · obtain ⟨q, hq, hx⟩ := List.mem_map.1 h
              have := (List.pairwise_cons.1 hs.2.1).1 q hq
              simp only at this
              omega
    have hobs : Crp.observe r [(o, .num (t : ℚ))] [] c = (.ok (), c.add r t) := by
      have := Crp.observe_ok ho hr (q := (t : ℚ)) (by rw [truncate_intCast]; exact hsup)
      rwa [truncate_intCast] at this
    have hdata : (c.add r t).data = done ++ [(r, t)] := by
      rw [Crp.add]
      simp only
      rw [Dict.set_of_not_mem _ _ _ hr, hd]
    obtain ⟨c', h1, h2⟩ := ih (done ++ [(r, t)]) (c.add r t) (Crp.inv_add hI hr ht0) ho hdata
      (by simpa using hn) (by
        rw [List.append_assoc]
        exact List.pairwise_append.2 hs) (by simpa using hg)
    refine ⟨c', ?_, by simpa using h2⟩
    rw [seat, Py.bind_apply, hobs]
    exact h1

theorem seat_sorted (o : Var) (l : List (RowId × Int)) (c : Crp) (hI : c.Inv) (ho : c.outputs = [o])
    (hd : c.data = []) (hn : (Dict.keys l).Nodup) (hs : l.Pairwise fun a b => a.2 ≤ b.2)
    (hg : NoGaps (l.map Prod.snd)) : ∃ c', seat o l c = (.ok (), c') ∧ c'.data = l :=
  seat_append o l [] c hI ho hd hn hs hg

theorem noGaps_rank {ks ts : List Int} (hn : ks.Nodup) (h : ∀ t, t ∈ ks ↔ t ∈ ts) :
    NoGaps (ts.map (rankOf ks)) := by
  intro k hk
  obtain ⟨t, ht, rfl⟩ := List.mem_map.1 hk
  refine ⟨by unfold rankOf; omega, fun m h0 hm => ?_⟩
  obtain ⟨t', ht', rfl⟩ := rankOf_surj hn ((h t).2 ht) h0 hm
  exact List.mem_map_of_mem ((h t').1 ht')

theorem NoGaps.perm {a b : List Int} (h : NoGaps a) (hp : a.Perm b) : NoGaps b := fun k hk =>
  ⟨(h k (hp.mem_iff.2 hk)).1, fun m h0 hm => hp.mem_iff.1 ((h k (hp.mem_iff.2 hk)).2 m h0 hm)⟩

theorem rebase_eq {ks : List Int} {Zr : Dict RowId Int}
    (h : ∀ t, t ∈ ks ↔ t ∈ Dict.values Zr) :
    rebaseRowAssignments ks Zr = .ok ((Zr.map fun kv => (kv.1, rankOf ks kv.2)).insertionSort
      fun a b => a.2 ≤ b.2) := by
  unfold rebaseRowAssignments
  dsimp only
  rw [mapM_ok_map _ (fun kv : RowId × Int => (kv.1, rankOf ks kv.2))]
  · rfl
  · intro kv hkv
    rw [Dict.getItem_ok (get?_zipIdx (fun n : Nat => (n : Int)) ks 0
      ((h kv.2).2 (List.mem_map_of_mem hkv)))]
    rfl

end Cgpm2
