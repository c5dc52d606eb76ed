import Verif.Lemmas.CppUpdate
import Verif.Spec.Export

/-!
# What a CrossCat hands to the C++ engine (helpers)
-/

namespace Cgpm2.Views
open Spec Cpp CoreDsl

section
variable {Z : List Var} {x : Crosscat}

/-- A held cell of a column is held by one of its primitives. -/
theorem cell_prim (h : CC Z x) {o : Var} (ho : o ∈ columns x) {r : RowId} {v : Val}
    (hc : (cgpmTab Z 3).cell (whole x) r o = some v) :
    ∃ q ∈ primsIn 3 (whole x), q.outputs = [o] ∧ (r, v) ∈ q.data := by
  obtain ⟨refs, e1, e2⟩ := (cgpm_walk Z 3 (whole x) h.reg).walk o (h.mem_outputs ho)
  obtain ⟨l, d1, -, d3⟩ := getDataset_eq h.reg (h.mem_outputs ho)
  have hm := (d3 r [(o, v)]).2 ⟨v, hc, rfl⟩
  unfold getDataset at d1
  rw [e1] at d1
  have d1 : (Except.ok (refs.objs.flatMap fun p => p.data.map fun rv => (rv.1, [(p.outputs.headD 0, rv.2)])) :
    Except Err (List (RowId × Dict Var Val))) = .ok l := d1
  cases d1
  obtain ⟨q, hq, hm⟩ := List.mem_flatMap.1 hm
  rw [e2.objs, colOf, List.mem_filter] at hq
  obtain ⟨⟨r', v'⟩, hrv, e⟩ := List.mem_map.1 hm
  cases e
  exact ⟨q, hq.1, by simpa using hq.2, hrv⟩

/-- The values of a categorical column are missing or among its categories. -/
theorem categorical_legal (h : CC Z x) {o : Var} (ho : o ∈ columns x) {b : Prim}
    (hb : ∀ q ∈ primsIn 3 (whole x), q.outputs = [o] → q.kind = b.kind ∧ q.card = b.card)
    (hk : b.kind = .categorical) {r : RowId} {q : ℚ}
    (hc : (cgpmTab Z 3).cell (whole x) r o = some (.num q)) : ∃ j : Int, q = j ∧ 0 ≤ j ∧ j < b.card := by
  obtain ⟨p, hp, hop, hrv⟩ := cell_prim h ho hc
  obtain ⟨k1, k2⟩ := hb p hp hop
  have hg := (reg_prims 3 _ h.reg p hp).1.1
  rw [hk] at k1
  rw [← k2]
  cases p with
  | categorical c =>
    have hl := Categorical.Inv.legal hg (.num q) (List.mem_map.2 ⟨_, hrv, rfl⟩)
    obtain ⟨i, hi, rfl⟩ := hl
    exact ⟨i, by simp, by simp, by exact_mod_cast hi⟩
  | _ => cases k1

/-! ## The data set -/

theorem foldl_set_nodup {K V : Type} [DecidableEq K] {ps : List (K × V)} (hn : (ps.map Prod.fst).Nodup) :
    ps.foldl (fun d kv => Dict.set d kv.1 kv.2) [] = ps := by
  have := dictZip_eq (vs := ps.map Prod.snd) hn
  unfold dictZip at this
  have hz : (ps.map Prod.fst).zip (ps.map Prod.snd) = ps := by
    rw [← List.unzip_fst, ← List.unzip_snd, List.zip_unzip]
  rwa [hz] at this

theorem dataset_eq (h : CC Z x) {o : Var} (ho : o ∈ columns x) : ∃ d : Dict RowId Val,
    (do
      let raw ← getDataset (n := 3) (whole x) o
      let pairs ← raw.mapM fun ro => do
        let v ← Dict.getItem ro.2 o
        pure (ro.1, v)
      pure (pairs.foldl (fun d kv => Dict.set d kv.1 kv.2) []) : Except Err (Dict RowId Val)) = .ok d ∧
    (Dict.keys d).Nodup ∧ ∀ r, Dict.get? d r = (cgpmTab Z 3).cell (whole x) r o := by
  obtain ⟨l, e1, e2, e3⟩ := getDataset_eq h.reg (h.mem_outputs ho)
  let f : RowId × Dict Var Val → RowId × Val := fun ro => (ro.1, (Dict.get? ro.2 o).getD .nan)
  have hm : l.mapM (fun ro => do
      let v ← Dict.getItem ro.2 o
      pure (ro.1, v) : RowId × Dict Var Val → Except Err (RowId × Val)) = .ok (l.map f) := by
    apply mapM_ok_map
    rintro ⟨r, d⟩ hrd
    obtain ⟨v, -, rfl⟩ := (e3 r d).1 hrd
    simp [f, Dict.getItem, Dict.get?]
  have hk : ((l.map f).map Prod.fst).Nodup := by simpa [f, Function.comp_def] using e2
  refine ⟨l.map f, ?_, hk, fun r => ?_⟩
  · rw [e1]
    change (do
      let pairs ← l.mapM fun ro => do
        let v ← Dict.getItem ro.2 o
        pure (ro.1, v)
      pure (pairs.foldl (fun d kv => Dict.set d kv.1 kv.2) []) : Except Err (Dict RowId Val)) = _
    rw [hm]
    change Except.ok _ = _
    rw [foldl_set_nodup hk]
  · have key : ∀ v, Dict.get? (l.map f) r = some v ↔ (cgpmTab Z 3).cell (whole x) r o = some v := by
      intro v
      constructor
      · intro hg
        obtain ⟨⟨r', d⟩, hrd, e⟩ := List.mem_map.1 (Dict.mem_of_get? hg)
        obtain ⟨v', hv', rfl⟩ := (e3 r' d).1 hrd
        simp only [f, Dict.get?, if_true, Option.getD_some, Prod.mk.injEq] at e
        obtain ⟨rfl, rfl⟩ := e
        exact hv'
      · intro hc
        refine Dict.get?_of_mem hk (List.mem_map.2 ⟨(r, [(o, v)]), (e3 _ _).2 ⟨v, hc, rfl⟩, ?_⟩)
        simp [f, Dict.get?]
    exact Option.ext key

theorem crosscatDataset_eq (h : CC Z x) : ∃ D : Var → Dict RowId Val,
    crosscatDataset x = .ok ((columns x).map fun o => (o, D o)) ∧
    ∀ o ∈ columns x, (Dict.keys (D o)).Nodup ∧ ∀ r, Dict.get? (D o) r = (cgpmTab Z 3).cell (whole x) r o := by
  have hall := fun o (ho : o ∈ columns x) => dataset_eq h ho
  choose! D h1 h2 using hall
  refine ⟨D, ?_, h2⟩
  unfold crosscatDataset
  rw [distributionOutputs_eq]
  dsimp only
  rw [mapM_ok_map _ D _ h1]
  change Except.ok _ = _
  rw [dictZip_eq (cc_columns_nodup h)]
  congr 1
  induction columns x with
  | nil => rfl
  | cons a l ih => simp [ih]

theorem columns_get {D : Var → Dict RowId Val} {o : Var} (ho : o ∈ columns x) :
    Dict.getItem ((columns x).map fun o => (o, D o)) o = .ok (D o) := by
  unfold Dict.getItem
  have : Dict.get? ((columns x).map fun o => (o, D o)) o = some (D o) := by
    generalize columns x = l at ho
    induction l with
    | nil => cases ho
    | cons a l ih =>
      rw [List.map_cons, Dict.get?_cons]
      by_cases e : a = o
      · rw [if_pos e, e]
      · rw [if_neg e]
        exact ih ((List.mem_cons.1 ho).resolve_left (Ne.symm e))
  rw [this]

theorem columns_ne (h : CC Z x) : columns x ≠ [] := by
  intro e
  obtain ⟨v, hv⟩ := List.exists_mem_of_ne_nil _ h.reg.2.2
  obtain ⟨o, ho⟩ := List.exists_mem_of_ne_nil _ (h.nonempty hv)
  have := mem_columns.2 ⟨v, hv, ho⟩
  rw [e] at this
  cases this

theorem before_rowLe {a b : RowId} (h : Before a b) : rowLe a b := by
  rcases a with _ | a <;> rcases b with _ | b <;> simp_all [rowLe, Before]
  omega

theorem before_ne {a b : RowId} (h : Before a b) : a ≠ b := by
  rcases a with _ | a <;> rcases b with _ | b <;> simp_all [Before]
  omega

/-- The rows of the data set, when every row has a cell in every column. -/
theorem rowidsMapping_eq (h : CC Z x) {D : Var → Dict RowId Val}
    (hD : ∀ o ∈ columns x, (Dict.keys (D o)).Nodup ∧ ∀ r, Dict.get? (D o) r = (cgpmTab Z 3).cell (whole x) r o)
    {rows : List RowId} (hr : ListsRows x rows) (hc : Complete x (· ∈ rows)) :
    rowidsMapping ((columns x).map fun o => (o, D o)) = .ok rows := by
  have hmem : ∀ o ∈ columns x, ∀ r, r ∈ Dict.keys (D o) ↔ r ∈ rows := by
    intro o ho r
    have hk : r ∈ Dict.keys (D o) ↔ (cgpmTab Z 3).cell (whole x) r o ≠ none := by
      rw [← (hD o ho).2, Ne, Dict.get?_eq_none_iff, not_not]
    rw [hk]
    constructor
    · intro hne
      rw [hr.2]
      exact fun g => ⟨o, ho, by rw [heldCell_eq (cgpmTLaws Z 3) h.reg]; exact hne⟩
    · intro hrow
      have := hc o ho r hrow fun _ => ⟨0, 0⟩
      rwa [heldCell_eq (cgpmTLaws Z 3) h.reg] at this
  have hne := columns_ne h
  rcases hcols : columns x with _ | ⟨o, l⟩
  · exact absurd hcols hne
  have ho : o ∈ columns x := by rw [hcols]; simp
  rw [List.map_cons]
  unfold rowidsMapping
  dsimp only
  rw [if_neg]
  · have hi1 : Std.Total (fun a b : RowId => (rowLe a b : Prop)) := ⟨rowLe_total⟩
    have hi2 : IsTrans RowId (fun a b => (rowLe a b : Prop)) := ⟨fun _ _ _ => rowLe_trans⟩
    have hp := List.perm_insertionSort (fun a b : RowId => (rowLe a b : Prop)) (Dict.keys (D o))
    have hp' : (Dict.keys (D o)).Perm rows :=
      (List.perm_ext_iff_of_nodup (hD o ho).1 (hr.1.imp before_ne)).2 (hmem o ho)
    congr 1
    exact (hp.trans hp').eq_of_pairwise (fun a b _ _ h h' => rowLe_antisymm h h')
      (List.pairwise_insertionSort _ _) (hr.1.imp before_rowLe)
  · rw [not_not]
    intro e he
    obtain ⟨o', ho', rfl⟩ := List.mem_map.1 he
    have ho'' : o' ∈ columns x := by rw [hcols]; simp [ho']
    exact ⟨fun r hr => (hmem o' ho'' r).2 ((hmem o ho r).1 hr), fun r hr => (hmem o ho r).2 ((hmem o' ho'' r).1 hr)⟩

/-! ## The metadata and the table -/

theorem numCategories_eq (p : Prim) : numCategories p = p.card := by cases p <;> rfl

theorem columnBases_eq (h : CC Z x) {B : Var → Prim}
    (hB : ∀ o ∈ columns x, cgpmBase (n := 3) (whole x) o = .ok (B o)) :
    columnBases x (columns x) = .ok ((columns x).map B) := by
  unfold columnBases
  rw [mapM_ok_map _ B _ hB]
  change (if columns x = [] then _ else _) = _
  rw [if_neg (columns_ne h)]
  rfl

theorem getMc_eq (h : CC Z x) {ordered : List Val → List Val} {B : Var → Prim} {D : Var → Dict RowId Val}
    (hB : ∀ o ∈ columns x, cgpmBase (n := 3) (whole x) o = .ok (B o))
    (hk : ∀ o ∈ columns x, cctype (B o).kind ≠ .other) {M : Var → ColMeta}
    (hM : ∀ o ∈ columns x, createMetadata (ordered (Dict.values (D o))) (cctype (B o).kind) (B o).card = .ok (M o)) :
    getMc ordered x ((columns x).map fun o => (o, D o)) =
      .ok ⟨((columns x).map columnName).zip (List.range (columns x).length),
        ((List.range (columns x).length).map fun i : Nat => decimal i).zip ((columns x).map columnName),
        (columns x).map M⟩ := by
  unfold getMc
  rw [distributionOutputs_eq]
  dsimp only
  rw [columnBases_eq h hB]
  change (if ((columns x).map fun o => (o, D o)).length ≠ (columns x).length then _ else _) = _
  rw [if_neg (by simp)]
  rw [if_neg (by
    rw [not_not]
    intro p hp
    obtain ⟨o, ho, rfl⟩ := List.mem_map.1 hp
    exact hk o ho)]
  have hz : (columns x).zip ((columns x).map B) = (columns x).map fun o => (o, B o) := by
    induction columns x with
    | nil => rfl
    | cons a l ih => simp [ih]
  rw [hz]
  have hm : ((columns x).map fun o => (o, B o)).mapM (fun ob => do
      let data ← Dict.getItem ((columns x).map fun o => (o, D o)) ob.1
      createMetadata (ordered (Dict.values data)) (cctype ob.2.kind) (numCategories ob.2) :
        Var × Prim → Except Err ColMeta) = .ok (((columns x).map fun o => (o, B o)).map fun ob => M ob.1) := by
    apply mapM_ok_map
    intro ob hob
    obtain ⟨o, ho, rfl⟩ := List.mem_map.1 hob
    dsimp only
    rw [columns_get ho, numCategories_eq]
    exact hM o ho
  change (do
    let columnMetadata ← ((columns x).map fun o => (o, B o)).mapM (fun ob => do
      let data ← Dict.getItem ((columns x).map fun o => (o, D o)) ob.1
      createMetadata (ordered (Dict.values data)) (cctype ob.2.kind) (numCategories ob.2) :
        Var × Prim → Except Err ColMeta)
    _ : Except Err Mc) = _
  rw [hm, List.map_map]
  change Except.ok _ = _
  rw [dictZip_eq, dictZip_eq]
  · rfl
  · refine List.Nodup.map ?_ List.nodup_range
    intro a b e
    have := decimal_inj e
    exact_mod_cast this
  · refine (cc_columns_nodup h).map ?_
    intro a b e
    exact decimal_inj (List.cons.inj e).2

theorem getT_eq {D : Var → Dict RowId Val} {rows : List RowId}
    (hr : rowidsMapping ((columns x).map fun o => (o, D o)) = .ok rows) {mc : Mc} {M : Var → ColMeta}
    (hM : mc.columnMetadata = (columns x).map M) {V C : Var → RowId → Val}
    (hV : ∀ o ∈ columns x, ∀ r ∈ rows, Dict.get? (D o) r = some (V o r))
    (hC : ∀ o ∈ columns x, ∀ r ∈ rows, valueToCode (M o) (V o r) = .ok (C o r)) :
    getT x mc ((columns x).map fun o => (o, D o)) = .ok (rows.map fun r => (columns x).map fun o => C o r) := by
  unfold getT
  rw [distributionOutputs_eq]
  dsimp only
  rw [hr]
  change rows.mapM (fun row => (columns x).zipIdx.mapM fun ci => do
    let data ← Dict.getItem ((columns x).map fun o => (o, D o)) ci.1
    let v ← Dict.getItem data row
    codeAt mc v ci.2) = _
  apply mapM_ok_map
  intro r hrow
  have : (columns x).zipIdx.mapM (fun ci => do
      let data ← Dict.getItem ((columns x).map fun o => (o, D o)) ci.1
      let v ← Dict.getItem data r
      codeAt mc v ci.2 : Var × Nat → Except Err Val) = .ok ((columns x).zipIdx.map fun ci => C ci.1 r) := by
    apply mapM_ok_map
    rintro ⟨o, i⟩ hoi
    have hi := List.mem_zipIdx_iff_getElem?.1 hoi
    have ho : o ∈ columns x := List.mem_of_getElem? hi
    dsimp only at hi ⊢
    rw [columns_get ho]
    change (do
      let v ← Dict.getItem (D o) r
      codeAt mc v i : Except Err Val) = _
    unfold Dict.getItem
    rw [hV o ho r hrow]
    change codeAt mc (V o r) i = _
    rw [← hC o ho r hrow]
    unfold codeAt
    rcases V o r with _ | q
    · rfl
    · dsimp only
      rw [hM, List.getElem?_map, hi]
      rfl
  rw [this]
  congr 1
  have h2 := congrArg (List.map fun o => C o r) (List.zipIdx_map_fst 0 (columns x))
  rw [← h2, List.map_map]
  rfl

end
end Cgpm2.Views
