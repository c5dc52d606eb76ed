import Verif.Model.CppCrosscat
import Verif.Spec.CppCrosscat
import Verif.Lemmas.Column
import Verif.Lemmas.TidyLaws
import Verif.Lemmas.Render
import Verif.Lemmas.CoreDsl

/-!
# What is handed to the C++ engine (helpers)
-/

namespace Cgpm2
open Spec

/-! ## Positions -/

/-- The positions of an element, in increasing order. -/
theorem positions_of (l : List Int) (u : Int) (j : Nat) :
    ((l.zipIdx j).filter fun ai => decide (ai.1 = u)).map Prod.snd =
      (List.range' j l.length).filter fun i => decide (l[i - j]? = some u) := by
  induction l generalizing j with
  | nil => rfl
  | cons a l ih =>
    rw [List.zipIdx_cons, List.filter_cons, List.length_cons, List.range'_succ, List.filter_cons]
    have e : ((List.range' (j + 1) l.length).filter fun i => decide ((a :: l)[i - j]? = some u)) =
        (List.range' (j + 1) l.length).filter fun i => decide (l[i - (j + 1)]? = some u) := by
      apply List.filter_congr
      intro i hi
      rw [List.mem_range'_1] at hi
      have : i - j = (i - (j + 1)) + 1 := by omega
      rw [this, List.getElem?_cons_succ]
    rw [e, ← ih]
    by_cases h : a = u <;> simp [h]

theorem blocks_eq (unique l : List Int) : Cpp.partitionToBlocks unique l =
    unique.map fun u => (List.range l.length).filter fun i => decide (l[i]? = some u) := by
  unfold Cpp.partitionToBlocks
  apply List.map_congr_left
  intro u _
  have := positions_of l u 0
  simpa [List.range_eq_range'] using this

/-! ## Coding -/

theorem decimal_inj {a b : Int} (h : CoreDsl.decimal a = CoreDsl.decimal b) : a = b := by
  have h1 := CoreDsl.parseInt_decimal a
  rw [h, CoreDsl.parseInt_decimal b] at h1
  cases h1
  rfl

theorem dictZip_other {K V : Type} [DecidableEq K] (ks : List K) (vs : List V) (d : Dict K V)
    {k : K} (hk : k ∉ ks) :
    Dict.get? ((ks.zip vs).foldl (fun d kv => Dict.set d kv.1 kv.2) d) k = Dict.get? d k := by
  induction ks generalizing vs d with
  | nil => simp
  | cons a ks ih =>
    rcases vs with _ | ⟨v, vs⟩
    · simp
    rw [List.mem_cons, not_or] at hk
    rw [List.zip_cons_cons, List.foldl_cons, ih vs _ hk.2, Dict.get?_set, if_neg fun e => hk.1 e.symm]

theorem dictZip_get {K V : Type} [DecidableEq K] (ks : List K) (vs : List V) (d : Dict K V)
    (hn : ks.Nodup) (hl : ks.length = vs.length) {k : K} {i : Nat} (hi : ks[i]? = some k) :
    Dict.get? ((ks.zip vs).foldl (fun d kv => Dict.set d kv.1 kv.2) d) k = vs[i]? := by
  induction ks generalizing vs d i with
  | nil => simp at hi
  | cons a ks ih =>
    rcases vs with _ | ⟨v, vs⟩
    · simp at hl
    rw [List.nodup_cons] at hn
    rw [List.zip_cons_cons, List.foldl_cons]
    rcases i with _ | i
    · simp only [List.getElem?_cons_zero, Option.some.injEq] at hi
      subst hi
      rw [dictZip_other _ _ _ hn.1, Dict.get?_set, if_pos rfl]
      rfl
    · rw [List.getElem?_cons_succ] at hi ⊢
      exact ih vs _ hn.2 (by simpa using hl) hi

/-! ## Rows in order -/

theorem rowLe_total (a b : RowId) : Cpp.rowLe a b ∨ Cpp.rowLe b a := by
  rcases a with _ | a <;> rcases b with _ | b <;> simp [Cpp.rowLe, le_total]

theorem rowLe_trans {a b c : RowId} (h : Cpp.rowLe a b) (h' : Cpp.rowLe b c) : Cpp.rowLe a c := by
  rcases a with _ | a <;> rcases b with _ | b <;> rcases c with _ | c <;>
    simp_all [Cpp.rowLe]
  omega

theorem before_of {a b : RowId} (h : Cpp.rowLe a b) (h' : a ≠ b) : Before a b := by
  rcases a with _ | a <;> rcases b with _ | b <;> simp_all [Cpp.rowLe, Before]
  omega

/-! ## Numbering -/

/-- Numbering the elements of a list by their place in an enumeration of them. -/
theorem noGaps_idxOf {α : Type} [DecidableEq α] {ks l : List α} (hn : ks.Nodup)
    (h : ∀ t, t ∈ ks ↔ t ∈ l) : NoGaps (l.map fun x => (ks.idxOf x : Int)) := by
  intro k hk
  obtain ⟨t, ht, rfl⟩ := List.mem_map.1 hk
  refine ⟨by omega, fun m h0 hm => ?_⟩
  have hl := List.idxOf_lt_length_of_mem ((h t).2 ht)
  have hm' : m.toNat < ks.length := by omega
  refine List.mem_map.2 ⟨ks[m.toNat], (h _).1 (List.getElem_mem hm'), ?_⟩
  rw [hn.idxOf_getElem _ hm']
  omega

theorem renumber_eq (l : List Val) : ∃ ks : List Val, ks.Nodup ∧ (∀ t, t ∈ ks ↔ t ∈ l) ∧
    Cpp.renumber l = .ok (l.map fun x => ks.idxOf x) := by
  have hp := List.perm_insertionSort (fun a b => (Cpp.valLe a b : Prop)) l.dedup
  refine ⟨_, hp.nodup_iff.2 (List.nodup_dedup l), fun t => by rw [hp.mem_iff, List.mem_dedup], ?_⟩
  unfold Cpp.renumber
  refine mapM_ok_map _ _ _ fun b hb => ?_
  have hb' : b ∈ l.dedup.insertionSort (fun a b => (Cpp.valLe a b : Prop)) := by
    rw [hp.mem_iff, List.mem_dedup]; exact hb
  have := get?_zipIdx (fun n : Nat => n) _ 0 hb'
  simp only [Prod.mk.eta, List.map_id', Nat.add_zero] at this
  unfold Dict.getItem
  rw [this]

/-! ## Data sets -/

/-- `get_dataset` lists the cells of a column, each row once. -/
theorem getDataset_eq {Z : List Var} {n : Nat} {c : Cgpm n} (h : (cgpmTab Z n).Reg c) {o : Var}
    (ho : o ∈ (cgpmI n).outputs c) :
    ∃ l, Cpp.getDataset c o = .ok l ∧ (l.map Prod.fst).Nodup ∧
      ∀ r d, (r, d) ∈ l ↔ ∃ x, (cgpmTab Z n).cell c r o = some x ∧ d = [(o, x)] := by
  obtain ⟨refs, h1, h2⟩ := (cgpm_walk Z n c h).walk o ho
  obtain ⟨l, h3, h4, h5⟩ := dataset_cells h o fun x => ([(o, x)] : Dict Var Val)
  refine ⟨l, ?_, h4, h5⟩
  unfold Cpp.getDataset
  rw [h1, ← h3]
  change Except.ok _ = _
  rw [h2.objs]
  congr 1
  apply List.flatMap_congr
  intro p hp
  have : p.outputs = [o] := by simpa [colOf] using (List.mem_filter.1 hp).2
  rw [this]
  rfl

/-- `get_crosscat_dataset_one` lists the values of a column in the order of the rows. -/
theorem datasetOne_eq {Z : List Var} {n : Nat} {c : Cgpm n} (h : (cgpmTab Z n).Reg c) {o : Var}
    (ho : o ∈ (cgpmI n).outputs c) :
    ∃ l : List (RowId × Val), Cpp.datasetOne c o = .ok (l.map Prod.snd) ∧
      (l.map Prod.fst).Pairwise Before ∧
      ∀ r x, (r, x) ∈ l ↔ (cgpmTab Z n).cell c r o = some x := by
  obtain ⟨l, h1, h2, h3⟩ := getDataset_eq h ho
  have hp := List.perm_insertionSort (fun a b : RowId × Dict Var Val => (Cpp.rowLe a.1 b.1 : Prop)) l
  have hi1 : Std.Total (fun a b : RowId × Dict Var Val => (Cpp.rowLe a.1 b.1 : Prop)) :=
    ⟨fun a b => rowLe_total a.1 b.1⟩
  have hi2 : IsTrans (RowId × Dict Var Val) (fun a b => (Cpp.rowLe a.1 b.1 : Prop)) :=
    ⟨fun _ _ _ => rowLe_trans⟩
  have hs := List.pairwise_insertionSort
    (fun a b : RowId × Dict Var Val => (Cpp.rowLe a.1 b.1 : Prop)) l
  set s := l.insertionSort (fun a b : RowId × Dict Var Val => (Cpp.rowLe a.1 b.1 : Prop)) with hsd
  have hm : ∀ rd ∈ s, Dict.getItem rd.2 o = .ok ((Dict.get? rd.2 o).getD .nan) ∧
      ∃ x, (cgpmTab Z n).cell c rd.1 o = some x ∧ rd.2 = [(o, x)] := by
    rintro ⟨r, d⟩ hrd
    obtain ⟨x, hx, hd⟩ := (h3 r d).1 (hp.mem_iff.1 hrd)
    refine ⟨?_, x, hx, hd⟩
    change Dict.getItem d o = _
    rw [hd]
    simp [Dict.getItem, Dict.get?]
  refine ⟨s.map fun rd => (rd.1, (Dict.get? rd.2 o).getD .nan), ?_, ?_, ?_⟩
  · unfold Cpp.datasetOne
    rw [h1]
    change s.mapM _ = _
    rw [mapM_ok_map _ (fun rd => (Dict.get? rd.2 o).getD .nan) _ fun rd hrd => (hm rd hrd).1,
      List.map_map]
    rfl
  · rw [List.map_map]
    have hn : (s.map Prod.fst).Nodup := (hp.map Prod.fst).nodup_iff.2 h2
    have e : (Prod.fst ∘ fun rd : RowId × Dict Var Val => (rd.1, (Dict.get? rd.2 o).getD Val.nan)) =
        Prod.fst := rfl
    rw [e, List.pairwise_map]
    unfold List.Nodup at hn
    rw [List.pairwise_map] at hn
    exact hs.imp₂ (fun a b h h' => before_of h h') hn
  · intro r x
    rw [List.mem_map]
    constructor
    · rintro ⟨⟨r', d⟩, hrd, he⟩
      obtain ⟨x', hx, hd⟩ := (hm _ hrd).2
      simp only at hx hd
      rw [hd] at he
      simp [Dict.get?] at he
      rw [← he.1, ← he.2]
      exact hx
    · intro hx
      refine ⟨(r, [(o, x)]), hp.mem_iff.2 ((h3 _ _).2 ⟨x, hx, rfl⟩), by simp [Dict.get?]⟩

end Cgpm2
