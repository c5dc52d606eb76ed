import Verif.Lemmas.CppUpdate
import Verif.Lemmas.ConcreteUpdate

/-!
# Property C51: importing the answer of the C++ engine
-/

namespace Cgpm2.Props
open Spec Views

/-- C51: whenever `_get_crosscat_updated(x, observations, M_c, X_L, X_D)` returns, for the
observations of the CrossCat, the CrossCat it returns has the columns and the cells of `x`; every
view has all the rows; the answer numbers all columns, and two columns share a view exactly when
they have the same number; and in the view of the columns with the `k`-th number, in the order in
which Python enumerates the set of numbers, two rows share a cluster exactly when the `k`-th entry
of `X_D` gives them the same number, the rows being counted in increasing order of their ids. -/
theorem C51_import_partial {Z : List Var} {x x' : Crosscat} (h : Tidy Z 3 (whole x)) (hx : IsCrosscat x)
    (hz : ∀ v ∈ columns x, v ∉ Z) (unique : List Int → List Int) (hu : Enumerates unique)
    (rows : List Int) (hrows : RowsInOrder x rows) (observations : Dict Var (Dict RowId Val))
    (hobs : crosscatDataset x = .ok observations) (a : Views.Answer) (g g' : Rng)
    (he : updateCrosscat unique observations a (x, g) = (.ok (), (x', g'))) :
    SameTable x x' ∧ Aligned x' (fun r => ∃ k ∈ rows, r = some k) ∧
    a.assignments.length = (columns x).length ∧
    (∀ (i j : Nat) v w m n, (columns x)[i]? = some v → (columns x)[j]? = some w →
      a.assignments[i]? = some m → a.assignments[j]? = some n → (Together x' v w ↔ m = n)) ∧
    (unique a.assignments).length = a.xd.length ∧
    ∀ (k : Nat) u part, (unique a.assignments)[k]? = some u → a.xd[k]? = some part →
      ∀ (i : Nat) v, a.assignments[i]? = some u → (columns x)[i]? = some v →
      ∀ view ∈ x'.cgpms, v ∈ viewColumns view →
      ∀ (p q : Nat) r s m n, rows[p]? = some r → rows[q]? = some s → part[p]? = some m →
        part[q]? = some n → (SameCluster view (some r) (some s) ↔ m = n) := by
  have hcc := cc_of_tidy h hx hz
  obtain ⟨hl1, hl2, hk, hR⟩ := update_ok hcc hu hrows hobs he
  obtain ⟨Z', hcc'⟩ := hk.cc
  have hnd := cc_columns_nodup hcc
  -- the view of a column
  have hview : ∀ (i : Nat) v u, (columns x)[i]? = some v → a.assignments[i]? = some u →
      ∃ (k : Nat) (part : List Int), (unique a.assignments)[k]? = some u ∧ a.xd[k]? = some part := by
    intro i v u _ hu'
    obtain ⟨k, hk'⟩ := List.mem_iff_getElem?.1 (((hu a.assignments).2 u).2 (List.mem_of_getElem? hu'))
    have : k < a.xd.length := by
      rw [← hl2]
      exact (List.getElem?_eq_some_iff.1 hk').1
    exact ⟨k, _, hk', List.getElem?_eq_getElem this⟩
  have hcols : ∀ {k : Nat} {u : Int} {part : List Int} {T : View},
      Realised unique (columns x) (rows.map some) (· ∈ rows.map some)
          ((a.assignments.zipIdx.filter fun ai => ai.1 = u).map Prod.snd, part) T →
      ∀ (i : Nat) v, (columns x)[i]? = some v → (v ∈ viewColumns T ↔ a.assignments[i]? = some u) := by
    intro k u part T hT i v hv
    rw [numbered_mem hT.cols]
    constructor
    · rintro ⟨j, hj, e⟩
      rw [mem_zip_block] at hj
      rw [index_inj hnd hv e]
      exact hj
    · exact fun hu' => ⟨i, mem_zip_block.2 hu', hv⟩
  refine ⟨hk.table, ?_, hl1, ?_, hl2, ?_⟩
  · refine (aligned_iff hcc' _).2 fun view hv r => ?_
    obtain ⟨o, ho⟩ := List.exists_mem_of_ne_nil _ (hcc'.nonempty hv)
    obtain ⟨i, hi⟩ := List.mem_iff_getElem?.1 (hk.cols.mem_iff.1 (mem_columns.2 ⟨view, hv, ho⟩))
    obtain ⟨u, hu'⟩ : ∃ u, a.assignments[i]? = some u := by
      have : i < a.assignments.length := by
        rw [hl1]
        exact (List.getElem?_eq_some_iff.1 hi).1
      exact ⟨_, List.getElem?_eq_getElem this⟩
    obtain ⟨k, part, h1, h2⟩ := hview i o u hi hu'
    obtain ⟨T, hT, hr⟩ := hR k u part h1 h2
    have : view = T := hcc'.eq_view hv hT (columns_sub ho)
      (columns_sub ((hcols (k := k) hr i o hi).2 hu'))
    subst this
    rw [present_eq Z' [], hr.rows, List.mem_map]
    exact exists_congr fun k => and_congr_right fun _ => eq_comm
  · intro i j v w m n hi hj hm hn
    obtain ⟨k, part, h1, h2⟩ := hview i v m hi hm
    obtain ⟨T, hT, hr⟩ := hR k m part h1 h2
    rw [together_view hcc' hT ((hcols (k := k) hr i v hi).2 hm), hcols (k := k) hr j w hj, hn,
      Option.some.injEq]
    exact eq_comm
  · intro k u part hku hkp i v hi hv view hvw hvv p q r s m n hp hq hm hn
    obtain ⟨T, hT, hr⟩ := hR k u part hku hkp
    have : view = T := hcc'.eq_view hvw hT (columns_sub hvv)
      (columns_sub ((hcols (k := k) hr i v hv).2 hi))
    subst this
    obtain ⟨RB, hg, hb⟩ := hr.groups
    have hcl : SameCluster view (some r) (some s) ↔ Views.clusterOf view (some s) = Views.clusterOf view (some r) := by
      have e : ∀ g r, heldCell (cgpmI 2) view g r (((cgpmI 2).outputs view).headD 0) = Views.clusterOf view r :=
        fun g r => by rw [Views.clusterOf_eq Z', heldCell_eq (cgpmTLaws Z' 2) (hcc'.viewReg hvw)]
      unfold SameCluster
      simp only [e]
      exact ⟨fun h => (h fun _ => ⟨0, 0⟩).symm, fun h _ => h.symm⟩
    have hnr : (rows.map some).Nodup :=
      (hrows.1.imp fun h => ne_of_lt h).map some fun a b h e => h (Option.some.inj e)
    have hp' : (rows.map some)[p]? = some (some r) := by rw [List.getElem?_map, hp]; rfl
    have hq' : (rows.map some)[q]? = some (some s) := by rw [List.getElem?_map, hq]; rfl
    obtain ⟨B, hB, hBm⟩ := hb _ (mem_block.2 ⟨m, ((hu part).2 m).2 (List.mem_of_getElem? hm), rfl⟩)
    rw [hcl, hg B hB (some r) ((numbered_mem hBm).2 ⟨p, mem_zip_block.2 hm, hp'⟩) (some s),
      numbered_mem hBm]
    constructor
    · rintro ⟨j, hj, e⟩
      rw [mem_zip_block] at hj
      rw [index_inj hnr e hq', hn] at hj
      exact (Option.some.inj hj).symm
    · rintro rfl
      exact ⟨q, mem_zip_block.2 hn, hq'⟩

/-- C51, when the numbers of the views are `0, …, n-1` and Python enumerates the set of them in this
order, as CPython does for small numbers: the entry `u` of `X_D` describes the view of the columns
with the number `u`. -/
theorem C51_numbered {Z : List Var} {x x' : Crosscat} (h : Tidy Z 3 (whole x)) (hx : IsCrosscat x)
    (hz : ∀ v ∈ columns x, v ∉ Z) (unique : List Int → List Int) (hu : Enumerates unique)
    (rows : List Int) (hrows : RowsInOrder x rows) (observations : Dict Var (Dict RowId Val))
    (hobs : crosscatDataset x = .ok observations) (a : Views.Answer) (g g' : Rng)
    (hnum : unique a.assignments = (List.range a.xd.length).map Int.ofNat)
    (he : updateCrosscat unique observations a (x, g) = (.ok (), (x', g'))) :
    ∀ (i u : Nat) v part, (columns x)[i]? = some v → a.assignments[i]? = some (u : Int) →
      a.xd[u]? = some part → ∀ view ∈ x'.cgpms, v ∈ viewColumns view →
      ∀ (p q : Nat) r s m n, rows[p]? = some r → rows[q]? = some s → part[p]? = some m →
        part[q]? = some n → (SameCluster view (some r) (some s) ↔ m = n) := by
  intro i u v part hv hi hp
  refine (C51_import_partial h hx hz unique hu rows hrows observations hobs a g g' he).2.2.2.2.2 u u part ?_ hp i v hi hv
  have : u < a.xd.length := (List.getElem?_eq_some_iff.1 hp).1
  rw [hnum, List.getElem?_map, List.getElem?_range this]
  rfl

open Concrete in
/-- The hypotheses are met by a CrossCat of two views with two rows, and the answer that puts both
columns into one view and the rows into different clusters. -/
example : Tidy [5, 6] 3 (whole duo) ∧ IsCrosscat duo ∧ (∀ v ∈ columns duo, v ∉ [5, 6]) ∧
    Enumerates List.dedup ∧ RowsInOrder duo [0, 1] ∧ crosscatDataset duo = .ok duoData ∧
    List.dedup duoAnswer.assignments = (List.range duoAnswer.xd.length).map Int.ofNat ∧
    ∃ x' g', updateCrosscat List.dedup duoData duoAnswer (duo, g7) = (.ok (), (x', g')) :=
  ⟨duo_tidy, duo_crosscat, duo_plain, dedup_enumerates, duo_rowsInOrder, duo_dataset, rfl, duo_update⟩

end Cgpm2.Props
