import Verif.Lemmas.ExportState
import Verif.Lemmas.ConcreteExport
import Verif.Props.CppCrosscat
import Verif.Props.CppUpdate

/-!
# Properties C89 to C92: what the C++ engine is told about a CrossCat, and what its answer can do
-/

namespace Cgpm2.Props
open Spec Views

/-- C89: whatever the engine answers, and whatever the order in which Python enumerates sets: when
`transition_cpp` returns, the CrossCat it returns has the columns and the cells of the one it was
given, and is well-formed.  If the views had the rows `R`, and the table had no missing cells, then
the views of the result have the rows `R`. -/
theorem C89_table_kept {Z : List Var} {x x' : Crosscat} (h : Tidy Z 3 (whole x)) (hx : IsCrosscat x)
    (hz : ∀ v ∈ columns x, v ∉ Z) (env : Surroundings) (args : CppArgs) (g g' : Rng)
    (he : transitionCpp env args (x, g) = (.ok (), (x', g'))) :
    SameTable x x' ∧ ∀ R, Aligned x R → Complete x R → Aligned x' R := by
  have hk := transitionCpp_kin (x, g) () (x', g') (Kin.refl (cc_of_tidy h hx hz)) he
  exact ⟨Kin.table hk, Kin.rows hk⟩

/-- Two columns in two views, and an engine that puts them in one. -/
example : Tidy [5, 6] 3 (whole Concrete.duo) ∧ IsCrosscat Concrete.duo ∧
    (∀ v ∈ columns Concrete.duo, v ∉ [5, 6]) ∧ ∃ x' g', transitionCpp
      ⟨List.dedup, List.dedup, Concrete.joiner⟩ { N := some 1 } (Concrete.duo, Concrete.g7) = (.ok (), (x', g')) :=
  ⟨Concrete.duo_tidy, Concrete.duo_crosscat, Concrete.duo_plain, Concrete.duo_transition⟩

/-- C90: the data that `transition_cpp` gives to the engine.  When every column is Normal or
Categorical, and every row has a cell in every column, the metadata and the table are made.  The
columns are numbered in their order, under the names `c…`.  The table has a line for each row, in
order, with a code for each column, and the metadata of the column decode it to the cell; two cells
of a column have the same code exactly when they have the same value. -/
theorem C90_table {Z : List Var} {x : Crosscat} (h : Tidy Z 3 (whole x)) (hx : IsCrosscat x)
    (hz : ∀ v ∈ columns x, v ∉ Z) (hs : Supported x) (ordered : List Val → List Val)
    (hord : ListsSet ordered) (rows : List RowId) (hr : ListsRows x rows) (hc : Complete x (· ∈ rows))
    (g : Rng) :
    ∃ observations mc T, crosscatDataset x = .ok observations ∧ getMc ordered x observations = .ok mc ∧
      getT x mc observations = .ok T ∧
      mc.nameToIdx.length = (columns x).length ∧ mc.idxToName.length = (columns x).length ∧
      mc.columnMetadata.length = (columns x).length ∧
      (∀ (j : Nat) o, (columns x)[j]? = some o →
        Dict.get? mc.nameToIdx ('c' :: CoreDsl.decimal o) = some j ∧
        Dict.get? mc.idxToName (CoreDsl.decimal j) = some ('c' :: CoreDsl.decimal o) ∧
        ∀ col p, mc.columnMetadata[j]? = some col → OfColumn x o p →
          (col.modeltype = .normal ↔ p.kind = .normal) ∧
          (col.modeltype = .categorical ↔ p.kind = .categorical)) ∧
      T.length = rows.length ∧
      (∀ (i : Nat) codes r, T[i]? = some codes → rows[i]? = some r → codes.length = (columns x).length ∧
        ∀ (j : Nat) code o col, codes[j]? = some code → (columns x)[j]? = some o →
          mc.columnMetadata[j]? = some col →
          ∃ v, heldCell (cgpmI 3) (whole x) g r o = some v ∧ Decodes col code v) ∧
      ∀ (i i' : Nat) codes codes' r r', T[i]? = some codes → T[i']? = some codes' → rows[i]? = some r →
        rows[i']? = some r' → ∀ (j : Nat) code code' o, codes[j]? = some code → codes'[j]? = some code' →
          (columns x)[j]? = some o →
          (code = code' ↔ heldCell (cgpmI 3) (whole x) g r o = heldCell (cgpmI 3) (whole x) g r' o) := by
  have hcc := cc_of_tidy h hx hz
  obtain ⟨D, hobs, hD⟩ := crosscatDataset_eq hcc
  have : Inhabited Prim := ⟨.crp (Crp.init [] [] [] [])⟩
  have hall := fun o (ho : o ∈ columns x) => cgpmBase_column hcc ho
  choose! B hB1 hB2 hB3 hB4 hB5 using hall
  have hkind : ∀ o ∈ columns x, (B o).kind = .normal ∨ (B o).kind = .categorical :=
    fun o ho => hs o ho _ ⟨hB1 o ho, hB3 o ho⟩
  -- the metadata of each column
  have hmeta : ∀ o, ∃ m, o ∈ columns x →
      Cpp.createMetadata (ordered (Dict.values (D o))) (cctype (B o).kind) (B o).card = .ok m ∧
      (m.modeltype = .normal ↔ (B o).kind = .normal) ∧
      (m.modeltype = .categorical ↔ (B o).kind = .categorical) ∧
      ∀ r v, Dict.get? (D o) r = some v → ∃ c, Cpp.valueToCode m v = .ok c ∧ Decodes m c v := by
    intro o
    by_cases ho : o ∈ columns x
    · obtain ⟨m, h1, h2, h3, -, h5⟩ := column_meta hcc hord ho (hB5 o ho) (hkind o ho) (hD o ho).1 (hD o ho).2
      exact ⟨m, fun _ => ⟨h1, h2, h3, h5⟩⟩
    · exact ⟨⟨.normal, [], []⟩, fun h => absurd h ho⟩
  choose M hM using hmeta
  have hvals : ∀ o r, ∃ v c, o ∈ columns x → r ∈ rows → Dict.get? (D o) r = some v ∧
      Cpp.valueToCode (M o) v = .ok c ∧ Decodes (M o) c v := by
    intro o r
    by_cases ho : o ∈ columns x ∧ r ∈ rows
    · have hne : Dict.get? (D o) r ≠ none := by
        rw [(hD o ho.1).2, ← heldCell_eq (cgpmTLaws Z 3) hcc.reg (g := g)]
        exact hc o ho.1 r ho.2 g
      obtain ⟨v, hv⟩ := Option.ne_none_iff_exists'.1 hne
      obtain ⟨c, h1, h2⟩ := (hM o ho.1).2.2.2 r v hv
      exact ⟨v, c, fun _ _ => ⟨hv, h1, h2⟩⟩
    · exact ⟨.nan, .nan, fun a b => absurd ⟨a, b⟩ ho⟩
  choose V C hVC using hvals
  have hmc := getMc_eq (ordered := ordered) (D := D) hcc hB2 (fun o ho => by
    rcases hkind o ho with hk | hk <;> rw [hk] <;> simp [cctype]) (fun o ho => (hM o ho).1)
  have hT := getT_eq (x := x) (D := D) (rowidsMapping_eq hcc hD hr hc)
    (mc := ⟨((columns x).map columnName).zip (List.range (columns x).length),
        ((List.range (columns x).length).map fun i : Nat => CoreDsl.decimal i).zip ((columns x).map columnName),
        (columns x).map M⟩) (M := M) rfl (V := V) (C := C)
    (fun o ho r hr => (hVC o r ho hr).1) (fun o ho r hr => (hVC o r ho hr).2.1)
  have hcell : ∀ o ∈ columns x, ∀ r ∈ rows, heldCell (cgpmI 3) (whole x) g r o = some (V o r) := by
    intro o ho r hrow
    rw [heldCell_eq (cgpmTLaws Z 3) hcc.reg, ← (hD o ho).2]
    exact (hVC o r ho hrow).1
  have hnn : ((columns x).map columnName).Nodup := (cc_columns_nodup hcc).map fun a b e =>
    decimal_inj (List.cons.inj e).2
  have hnr : ((List.range (columns x).length).map fun i : Nat => CoreDsl.decimal i).Nodup :=
    List.nodup_range.map fun a b e => by have := decimal_inj e; exact_mod_cast this
  have hline : ∀ (i j : Nat) codes r code o, (rows.map fun r => (columns x).map fun o => C o r)[i]? = some codes →
      rows[i]? = some r → codes[j]? = some code → (columns x)[j]? = some o → code = C o r := by
    intro i j codes r code o h1 h2 h3 h4
    rw [List.getElem?_map, h2] at h1
    cases h1
    rw [List.getElem?_map, h4] at h3
    exact (Option.some.inj h3).symm
  refine ⟨_, _, _, hobs, hmc, hT, by simp, by simp, by simp, fun j o hj => ⟨?_, ?_, fun col p h1 h2 => ?_⟩,
    by simp, fun i codes r h1 h2 => ⟨?_, fun j code o col h3 h4 h5 => ?_⟩,
    fun i i' codes codes' r r' h1 h1' h2 h2' j code code' o h3 h3' h4 => ?_⟩
  · have hlt : j < (columns x).length := (List.getElem?_eq_some_iff.1 hj).1
    refine Dict.get?_of_mem (by simpa [Dict.keys, List.map_fst_zip] using hnn) (List.mem_of_getElem? (i := j) ?_)
    rw [List.getElem?_zip_eq_some, List.getElem?_map, hj, List.getElem?_range hlt]
    exact ⟨rfl, rfl⟩
  · have hlt : j < (columns x).length := (List.getElem?_eq_some_iff.1 hj).1
    refine Dict.get?_of_mem (by simpa [Dict.keys, List.map_fst_zip] using hnr) (List.mem_of_getElem? (i := j) ?_)
    rw [List.getElem?_zip_eq_some, List.getElem?_map, List.getElem?_map, hj, List.getElem?_range hlt]
    exact ⟨rfl, rfl⟩
  · have ho := List.mem_of_getElem? hj
    rw [List.getElem?_map, hj] at h1
    cases h1
    rw [(hB5 o ho p h2.1 h2.2).1]
    exact ⟨(hM o ho).2.1, (hM o ho).2.2.1⟩
  · rw [List.getElem?_map, h2] at h1
    cases h1
    simp
  · have ho := List.mem_of_getElem? h4
    have hrow := List.mem_of_getElem? h2
    rw [hline i j codes r code o h1 h2 h3 h4]
    rw [List.getElem?_map, h4] at h5
    cases h5
    exact ⟨V o r, hcell o ho r hrow, (hVC o r ho hrow).2.2⟩
  · have ho := List.mem_of_getElem? h4
    have hrow := List.mem_of_getElem? h2
    have hrow' := List.mem_of_getElem? h2'
    rw [hline i j codes r code o h1 h2 h3 h4, hline i' j codes' r' code' o h1' h2' h3' h4,
      hcell o ho r hrow, hcell o ho r' hrow', Option.some.injEq]
    obtain ⟨-, a2, a3⟩ := hVC o r ho hrow
    obtain ⟨-, b2, b3⟩ := hVC o r' ho hrow'
    constructor
    · intro e
      rw [e] at a3
      revert a3 b3
      generalize C o r' = c
      rcases V o r with _ | q <;> rcases V o r' with _ | q'
      · intros; rfl
      · rintro rfl (⟨-, h⟩ | ⟨-, i, j, h, -⟩) <;> cases h
      · rintro (⟨-, h⟩ | ⟨-, i, j, h, -⟩) h' <;> cases h' <;> cases h
      · rintro (⟨m1, h⟩ | ⟨m1, i, j, h, e1, e2⟩) (⟨m2, h'⟩ | ⟨m2, i', j', h', e1', e2'⟩)
        · rw [← h, ← h']
        · rw [m1] at m2; cases m2
        · rw [m1] at m2; cases m2
        · rw [h] at h'
          have : (i : ℚ) = i' := Val.num.inj h'
          have : i = i' := by exact_mod_cast this
          subst this
          rw [e2] at e2'
          rw [e1, e1', decimal_inj (Option.some.inj e2')]
    · intro e
      rw [e, b2] at a2
      exact (Except.ok.inj a2).symm

/-- The hypotheses are met by a CrossCat of two categorical columns with two rows. -/
example : Tidy [5, 6] 3 (whole Concrete.duo) ∧ IsCrosscat Concrete.duo ∧
    (∀ v ∈ columns Concrete.duo, v ∉ [5, 6]) ∧ Supported Concrete.duo ∧ ListsSet List.dedup ∧
    ListsRows Concrete.duo [some 0, some 1] ∧ Complete Concrete.duo (· ∈ [some 0, some 1]) :=
  ⟨Concrete.duo_tidy, Concrete.duo_crosscat, Concrete.duo_plain, Concrete.duo_supported,
    Concrete.dedup_listsSet, Concrete.duo_listsRows, Concrete.duo_complete⟩

/-- C90 fails for a column of another class: `transition_cpp` then raises. -/
theorem C90_violated {Z : List Var} {x : Crosscat} (h : Tidy Z 3 (whole x)) (hx : IsCrosscat x)
    (hz : ∀ v ∈ columns x, v ∉ Z) (hs : ¬ Supported x) (ordered : List Val → List Val)
    (observations : Dict Var (Dict RowId Val)) :
    getMc ordered x observations = .error .assertionError := by
  have hcc := cc_of_tidy h hx hz
  have : Inhabited Prim := ⟨.crp (Crp.init [] [] [] [])⟩
  have hall := fun o (ho : o ∈ columns x) => cgpmBase_column hcc ho
  choose! B hB1 hB2 hB3 hB4 hB5 using hall
  unfold getMc
  rw [distributionOutputs_eq]
  dsimp only
  rw [columnBases_eq hcc hB2]
  change (if observations.length ≠ (columns x).length then _ else _) = _
  by_cases hl : observations.length ≠ (columns x).length
  · rw [if_pos hl]; rfl
  rw [if_neg hl]
  rw [if_pos]
  · rfl
  intro hall
  refine hs fun o ho p hp => ?_
  have := hall _ (List.mem_map.2 ⟨o, ho, rfl⟩)
  rw [(hB5 o ho p hp.1 hp.2).1]
  revert this
  cases (B o).kind <;> simp [cctype]

/-- A CrossCat with a Bernoulli column. -/
example : Tidy [5] 3 (whole Concrete.coins) ∧ IsCrosscat Concrete.coins ∧
    (∀ v ∈ columns Concrete.coins, v ∉ [5]) ∧ ¬ Supported Concrete.coins :=
  ⟨Concrete.coins_tidy, Concrete.coins_crosscat, by
    change ∀ v ∈ [(1 : Var)], v ∉ [(5 : Var)]; simp, Concrete.coins_unsupported⟩

/-- C91: the latent state that `transition_cpp` gives to the engine, of a CrossCat whose columns are
Normal, or Categorical with a value that is not missing: the hyperparameters of each column, the
number of its view, how many columns each view has, and for each view the names of its columns,
the sizes of its clusters (in the numbering of `X_D`) and the concentration of its CRP.  The columns
that have to be in one view, or in different ones, are told by their numbers. -/
theorem C91_state {Z : List Var} {x : Crosscat} (h : Tidy Z 3 (whole x)) (hx : IsCrosscat x)
    (hz : ∀ v ∈ columns x, v ∉ Z) (hs : Supported x) (hv : HasNumbers x) (ordered : List Val → List Val)
    (hord : ListsSet ordered) (con : Constraints)
    (hd : ∀ block ∈ con.dependent, ∀ c ∈ block, c ∈ columns x)
    (hi : ∀ cb ∈ con.scc, cb.1 ∈ columns x ∧ ∀ c ∈ cb.2, c ∈ columns x)
    (observations : Dict Var (Dict RowId Val)) (hobs : crosscatDataset x = .ok observations) (mc : Mc)
    (hmc : getMc ordered x observations = .ok mc) (xd : List (List Nat))
    (hxd : Cpp.getXD (n := 2) x = .ok xd) :
    ∃ xl, getXL x mc xd con = .ok xl ∧
      xl.columnHypers.length = (columns x).length ∧
      (∀ (i : Nat) o hy, (columns x)[i]? = some o → xl.columnHypers[i]? = some hy → Tells x o hy) ∧
      xl.assignments.length = (columns x).length ∧
      (∀ (i : Nat) o k, (columns x)[i]? = some o → xl.assignments[i]? = some k →
        ∃ view, x.cgpms[k]? = some view ∧ o ∈ viewColumns view) ∧
      xl.counts = x.cgpms.map (fun view => (viewColumns view).length) ∧
      xl.viewStates.length = x.cgpms.length ∧
      (∀ (k : Nat) view st numbers, x.cgpms[k]? = some view → xl.viewStates[k]? = some st →
        xd[k]? = some numbers →
        st.columnNames = (viewColumns view).map (fun o => 'c' :: CoreDsl.decimal o) ∧
        st.counts.length = numbers.dedup.length ∧
        (∀ (c n : Nat), st.counts[c]? = some n → n = numbers.count c ∧ 0 < n) ∧
        ∃ crp, Node.rowDivide (view : Node (Cgpm 1)) = some crp ∧
          Dict.get? crp.getHypers "alpha" = some st.alpha) ∧
      (xl.dependent = none ↔ con.dependent = []) ∧ (xl.independent = none ↔ con.independent = []) ∧
      (∀ d, xl.dependent = some d → con.dependent.flatten.Nodup →
        ∀ block ∈ con.dependent, ∀ c ∈ block, Lists x d c block) ∧
      ∀ d, xl.independent = some d → (con.scc.map Prod.fst).Nodup →
        ∀ cb ∈ con.scc, Lists x d cb.1 cb.2 := by
  have hcc := cc_of_tidy h hx hz
  have : Inhabited Prim := ⟨.crp (Crp.init [] [] [] [])⟩
  obtain ⟨D, hobs', hD⟩ := crosscatDataset_eq hcc
  rw [hobs] at hobs'
  cases hobs'
  have hall := fun o (ho : o ∈ columns x) => cgpmBase_column hcc ho
  choose! B hB1 hB2 hB3 hB4 hB5 using hall
  have hkind : ∀ o ∈ columns x, (B o).kind = .normal ∨ (B o).kind = .categorical :=
    fun o ho => hs o ho _ ⟨hB1 o ho, hB3 o ho⟩
  have hmeta : ∀ o, ∃ m, o ∈ columns x →
      Cpp.createMetadata (ordered (Dict.values (D o))) (cctype (B o).kind) (B o).card = .ok m ∧
      ((B o).kind = .categorical → m.codeToValue.length = (Cpp.numbers (ordered (Dict.values (D o)))).length) := by
    intro o
    by_cases ho : o ∈ columns x
    · obtain ⟨m, h1, h2, h3, h4, h5⟩ := column_meta hcc hord ho (hB5 o ho) (hkind o ho) (hD o ho).1 (hD o ho).2
      exact ⟨m, fun _ => ⟨h1, h4⟩⟩
    · exact ⟨⟨.normal, [], []⟩, fun h => absurd h ho⟩
  choose M hM using hmeta
  have hmc' := getMc_eq (ordered := ordered) (D := D) hcc hB2 (fun o ho => by
    rcases hkind o ho with hk | hk <;> rw [hk] <;> simp [cctype]) (fun o ho => (hM o ho).1)
  rw [hmc] at hmc'
  cases hmc'
  have hnum : ∀ o ∈ columns x, ∀ q g, q ∈ Cpp.numbers (ordered (Dict.values (D o))) ↔
      ∃ r, heldCell (cgpmI 3) (whole x) g r o = some (.num q) := by
    intro o ho q g
    unfold Cpp.numbers
    rw [List.mem_filterMap]
    constructor
    · rintro ⟨v, hv, e⟩
      cases v with
      | nan => cases e
      | num q' =>
        cases e
        obtain ⟨⟨r, v⟩, hrv, rfl⟩ := List.mem_map.1 (((hord _).1 _).1 hv)
        refine ⟨r, ?_⟩
        rw [heldCell_eq (cgpmTLaws Z 3) hcc.reg, ← (hD o ho).2]
        exact Dict.get?_of_mem (hD o ho).1 hrv
    · rintro ⟨r, hr⟩
      rw [heldCell_eq (cgpmTLaws Z 3) hcc.reg, ← (hD o ho).2] at hr
      exact ⟨.num q, ((hord _).1 _).2 (List.mem_map.2 ⟨_, Dict.mem_of_get? hr, rfl⟩), rfl⟩
  obtain ⟨xd', hxd', hlen, hX⟩ := C50_row_partition Z 2 x h (fun _ => ⟨0, 0⟩) fun view hview => by
    obtain ⟨z, hz, e⟩ := hcc.head hview
    exact ⟨z, hz, by rw [e]; rfl⟩
  rw [hxd] at hxd'
  cases hxd'
  have hgaps : ∀ part ∈ xd, NoGaps (part.map Int.ofNat) := by
    intro part hpart
    obtain ⟨k, hk⟩ := List.mem_iff_getElem?.1 hpart
    have hlt : k < x.cgpms.length := by
      rw [← hlen]; exact (List.getElem?_eq_some_iff.1 hk).1
    obtain ⟨z, -, e⟩ := hcc.head (List.getElem_mem hlt)
    obtain ⟨_, -, -, -, h1, -⟩ := hX k _ z part (List.getElem?_eq_getElem hlt) (by rw [e]; rfl) hk
    exact h1
  obtain ⟨xl, e, ⟨H, hH1, hH2⟩, ⟨A, hA1, hA2⟩, hcounts, hsts, hdn, hin, hds, his⟩ :=
    getXL_eq (xd := xd) (con := con) (M := M) hcc hB2 hkind (mc := ⟨_, _, (columns x).map M⟩) rfl (fun o ho hk => by
      rw [(hM o ho).2 hk]
      obtain ⟨r, hr⟩ := hv o ho _ ⟨hB1 o ho, hB3 o ho⟩ hk
      obtain ⟨q, hq⟩ := hr fun _ => ⟨0, 0⟩
      have := (hnum o ho q _).2 ⟨r, hq⟩
      intro h0
      rw [List.length_eq_zero_iff.1 h0] at this
      cases this) hgaps hd hi
  refine ⟨xl, e, by rw [hH1]; simp, ?_, by rw [hA1]; simp, ?_, hcounts, ?_, ?_, ?_, ?_, ?_, ?_⟩
  · intro i o hy ho hhy
    have hoc := List.mem_of_getElem? ho
    rw [hH1, List.getElem?_map, ho] at hhy
    cases hhy
    have := hH2 o hoc
    rcases hHo : H o with ⟨mu, nu, r, s⟩ | ⟨alpha, K⟩
    · rw [hHo] at this
      exact ⟨B o, ⟨hB1 o hoc, hB3 o hoc⟩, hB4 o hoc, this⟩
    · rw [hHo] at this
      obtain ⟨h1, h2, rfl⟩ := this
      exact ⟨B o, ⟨hB1 o hoc, hB3 o hoc⟩, hB4 o hoc, h1, h2, _, (hord _).2, ((hM o hoc).2 h1).symm, hnum o hoc⟩
  · intro i o k ho hk
    rw [hA1, List.getElem?_map, ho] at hk
    cases hk
    exact hA2 o (List.mem_of_getElem? ho)
  · rw [← hsts.length_eq, List.length_zip, hlen, Nat.min_self]
  · intro k view st numbers h1 h2 h3
    have hview := List.mem_of_getElem? h1
    obtain ⟨crp, alpha, c1, c2, c3⟩ := createViewState_eq hcc hview (hgaps numbers (List.mem_of_getElem? h3))
    have hst : createViewState view numbers = .ok st := by
      have hz : (x.cgpms.zip xd)[k]? = some (view, numbers) := by
        rw [List.getElem?_zip_eq_some]; exact ⟨h1, h3⟩
      obtain ⟨hlt, hz⟩ := List.getElem?_eq_some_iff.1 hz
      obtain ⟨hlt', h2⟩ := List.getElem?_eq_some_iff.1 h2
      have := hsts.get hlt hlt'
      simp only [List.get_eq_getElem] at this
      rwa [hz, h2] at this
    rw [c3] at hst
    cases hst
    refine ⟨rfl, by simp, fun c n hn => ?_, crp, c1, c2⟩
    dsimp only at hn
    rw [List.getElem?_map] at hn
    obtain ⟨c', hc', rfl⟩ := Option.map_eq_some_iff.1 hn
    obtain ⟨hlt, rfl⟩ := List.getElem?_eq_some_iff.1 hc'
    rw [List.getElem_range]
    refine ⟨rfl, List.count_pos_iff.2 ?_⟩
    rw [noGaps_range (hgaps numbers (List.mem_of_getElem? h3))]
    simpa using hlt
  · refine ⟨fun e => ?_, hdn⟩
    by_contra hne
    obtain ⟨d, h1, -⟩ := hds hne
    rw [e] at h1; cases h1
  · refine ⟨fun e => ?_, hin⟩
    by_contra hne
    obtain ⟨d, h1, -⟩ := his hne
    rw [e] at h1; cases h1
  · intro d hd' hn block hb c hc i hi'
    have hne : con.dependent ≠ [] := fun e => by rw [e] at hb; cases hb
    obtain ⟨d', h1, h2⟩ := hds hne
    rw [hd'] at h1
    cases h1
    obtain ⟨d'', e1, e2⟩ := ensure_ok (outputs := columns x)
      (pairs := con.dependent.flatMap fun block => block.map fun c => (c, block)) (cc_columns_nodup hcc) (by
        intro cb hcb
        obtain ⟨block, hb, hcb⟩ := List.mem_flatMap.1 hcb
        obtain ⟨c, hc, rfl⟩ := List.mem_map.1 hcb
        exact ⟨hd block hb c hc, hd block hb⟩)
    rw [h2] at e1
    cases e1
    refine e2 ?_ (c, block) (List.mem_flatMap.2 ⟨block, hb, List.mem_map.2 ⟨c, hc, rfl⟩⟩) i hi'
    rw [List.map_flatMap]
    simpa [List.map_map, Function.comp_def, List.flatMap_def] using hn
  · intro d hd' hn cb hcb i hi'
    have hne : con.independent ≠ [] := fun e => by rw [hin e] at hd'; cases hd'
    obtain ⟨d', h1, h2⟩ := his hne
    rw [hd'] at h1
    cases h1
    obtain ⟨d'', e1, e2⟩ := ensure_ok (outputs := columns x) (pairs := con.scc) (cc_columns_nodup hcc) hi
    rw [h2] at e1
    cases e1
    exact e2 hn cb hcb i hi'

example : Tidy [5] 3 (whole Concrete.mono) ∧ IsCrosscat Concrete.mono ∧
    (∀ v ∈ columns Concrete.mono, v ∉ [5]) ∧ Supported Concrete.mono ∧ HasNumbers Concrete.mono ∧
    ListsSet List.dedup ∧ ∃ observations mc, crosscatDataset Concrete.mono = .ok observations ∧
      getMc List.dedup Concrete.mono observations = .ok mc ∧
      Cpp.getXD (n := 2) Concrete.mono = .ok [[0, 1]] :=
  ⟨Concrete.mono_tidy, Concrete.mono_crosscat, Concrete.mono_plain, Concrete.mono_supported,
    Concrete.mono_numbers, Concrete.dedup_listsSet, _, _, Concrete.mono_dataset, rfl, Concrete.mono_xd⟩

/-- C91 fails for a categorical column with missing values only: `transition_cpp` then raises, whatever
the engine. -/
theorem C91_violated : ∃ x : Crosscat, Tidy [5] 3 (whole x) ∧ IsCrosscat x ∧ Supported x ∧
    columns x = [1] ∧ ∀ unique engine (N : Int) g,
      transitionCpp ⟨unique, List.dedup, engine⟩ { N := some N } (x, g) = (.error .assertionError, (x, g)) :=
  ⟨Concrete.blank, Concrete.blank_tidy, Concrete.blank_crosscat, Concrete.blank_supported, rfl,
    fun _ _ _ _ => rfl⟩

/-- C92: exporting and importing is the identity.  If the engine answers with the views and clusters it
was given, and `transition_cpp` returns, then the columns are grouped into views, and the rows of each
view into clusters, as they were. -/
theorem C92_round_trip {Z : List Var} {x x' : Crosscat} (h : Tidy Z 3 (whole x)) (hx : IsCrosscat x)
    (hz : ∀ v ∈ columns x, v ∉ Z) (env : Surroundings) (hu : Enumerates env.unique)
    (ho : InOrder env.unique) (hecho : Echoes env.engine) (rows : List Int) (hrows : RowsInOrder x rows)
    (hal : Aligned x fun r => ∃ k ∈ rows, r = some k) (args : CppArgs) (g g' : Rng)
    (he : transitionCpp env args (x, g) = (.ok (), (x', g'))) :
    (∀ v w, v ∈ columns x → w ∈ columns x → (Together x' v w ↔ Together x v w)) ∧
    ∀ view ∈ x.cgpms, ∀ view' ∈ x'.cgpms, ∀ v, v ∈ viewColumns view → v ∈ viewColumns view' →
      ∀ r ∈ rows, ∀ s ∈ rows, (SameCluster view' (some r) (some s) ↔ SameCluster view (some r) (some s)) := by
  have hcc := cc_of_tidy h hx hz
  have hnd := cc_columns_nodup hcc
  unfold transitionCpp at he
  obtain ⟨⟨xa, ga⟩, s1, e1, he⟩ := run_bind he
  cases e1
  obtain ⟨⟨st, mt⟩, s2, e2, he⟩ := run_bind he
  obtain ⟨-, rfl⟩ := lift_ok e2
  obtain ⟨cols, s3, e3, he⟩ := run_bind he
  obtain ⟨-, rfl⟩ := lift_ok e3
  obtain ⟨obs, s4, e4, he⟩ := run_bind he
  obtain ⟨hobs, rfl⟩ := lift_ok e4
  have hne : obs ≠ [] := by
    obtain ⟨D, h1, -⟩ := crosscatDataset_eq hcc
    rw [hobs] at h1
    cases h1
    exact fun e => columns_ne hcc (List.map_eq_nil_iff.1 e)
  rw [if_neg hne] at he
  obtain ⟨G, s5, e5, he⟩ := run_bind he
  obtain ⟨hG, rfl⟩ := lift_ok e5
  obtain ⟨reply, s6, e6, he⟩ := run_bind he
  obtain ⟨hr, rfl⟩ := lift_ok e6
  rw [hecho G] at hr
  cases hr
  -- what the engine was given
  unfold given at hG
  obtain ⟨_, -, hG⟩ := except_bind hG
  obtain ⟨mc, -, hG⟩ := except_bind hG
  obtain ⟨_, -, hG⟩ := except_bind hG
  obtain ⟨xd, hxd, hG⟩ := except_bind hG
  obtain ⟨xl, hxl, hG⟩ := except_bind hG
  cases hG
  obtain ⟨hl, hA⟩ := getXL_assignments hcc hxl
  obtain ⟨xd', hxd', hlen, hX⟩ := C50_row_partition Z 2 x h (fun _ => ⟨0, 0⟩) fun view hview => by
    obtain ⟨z, hz, e⟩ := hcc.head hview
    exact ⟨z, hz, by rw [e]; rfl⟩
  rw [hxd] at hxd'
  cases hxd'
  obtain ⟨-, -, -, hT, hlu, -⟩ := C51_import_partial h hx hz env.unique hu rows hrows obs hobs _ g g' he
  have hTo := fun hn => C51_numbered h hx hz env.unique hu rows hrows obs hobs _ g g' hn he
  have hget : ∀ v ∈ columns x, ∃ (i k : Nat) (u : View), (columns x)[i]? = some v ∧ xl.assignments[i]? = some k ∧
      x.cgpms[k]? = some u ∧ v ∈ viewColumns u := by
    intro v hv
    obtain ⟨i, hi⟩ := List.mem_iff_getElem?.1 hv
    have hlt : i < xl.assignments.length := by
      rw [hl]; exact (List.getElem?_eq_some_iff.1 hi).1
    obtain ⟨u, h1, h2⟩ := hA i v _ hi (List.getElem?_eq_getElem hlt)
    exact ⟨i, _, u, hi, List.getElem?_eq_getElem hlt, h1, h2⟩
  constructor
  · intro v w hv hw
    obtain ⟨i, k, u, hi, hk, hku, hvu⟩ := hget v hv
    obtain ⟨j, m, t, hj, hm, hmt, hwt⟩ := hget w hw
    rw [hT i j v w k m hi hj (by
        change (xl.assignments.map Int.ofNat)[i]? = _
        rw [List.getElem?_map, hk]; rfl) (by
        change (xl.assignments.map Int.ofNat)[j]? = _
        rw [List.getElem?_map, hm]; rfl), together_view hcc (List.mem_of_getElem? hku) hvu]
    constructor
    · intro e
      have e : k = m := by exact_mod_cast e
      subst e
      rw [hku] at hmt
      cases hmt
      exact hwt
    · intro hwu
      rw [index_unique hcc.nodup hku hmt (columns_sub hwu) (columns_sub hwt)]
  · intro view hview view' hview' v hv hv' r hr s hs
    have hvc : v ∈ columns x := mem_columns.2 ⟨view, hview, hv⟩
    obtain ⟨i, k, u, hi, hk, hku, hvu⟩ := hget v hvc
    have : u = view := hcc.eq_view (List.mem_of_getElem? hku) hview (columns_sub hvu) (columns_sub hv)
    subst this
    -- the numbers of the views are 0, …, n-1
    have hmem : ∀ i : Int, i ∈ xl.assignments.map Int.ofNat ↔ 0 ≤ i ∧ i < (x.cgpms.length : Nat) := by
      intro a
      rw [List.mem_map]
      constructor
      · rintro ⟨b, hb, rfl⟩
        obtain ⟨j, hj⟩ := List.mem_iff_getElem?.1 hb
        have hlt : j < (columns x).length := by
          rw [← hl]; exact (List.getElem?_eq_some_iff.1 hj).1
        obtain ⟨w, hw, -⟩ := hA j _ b (List.getElem?_eq_getElem hlt) hj
        have := (List.getElem?_eq_some_iff.1 hw).1
        exact ⟨Int.natCast_nonneg b, Int.ofNat_lt.2 this⟩
      · rintro ⟨h0, hlt⟩
        obtain ⟨n, rfl⟩ := Int.eq_ofNat_of_zero_le h0
        have hlt : n < x.cgpms.length := by exact_mod_cast hlt
        have hw := List.getElem?_eq_getElem hlt
        obtain ⟨o, hoo⟩ := List.exists_mem_of_ne_nil _ (hcc.nonempty (List.getElem_mem hlt))
        obtain ⟨j, m, t, hj, hm, hmt, hot⟩ := hget o (mem_columns.2 ⟨_, List.getElem_mem hlt, hoo⟩)
        have : m = n := index_unique hcc.nodup hmt hw (columns_sub hot) (columns_sub hoo)
        subst this
        exact ⟨m, List.mem_of_getElem? hm, rfl⟩
    have hun : env.unique (xl.assignments.map Int.ofNat) = (List.range x.cgpms.length).map Int.ofNat := ho _ _ hmem
    have hklt : k < xd.length := by rw [hlen]; exact (List.getElem?_eq_some_iff.1 hku).1
    obtain ⟨z, hzZ, hhead⟩ := hcc.head (List.mem_of_getElem? hku)
    obtain ⟨rws, hrl, hsorted, hmemr, -, hsame⟩ := hX k u z _ hku (by rw [hhead]; rfl) (List.getElem?_eq_getElem hklt)
    -- the rows are the same
    have hcell : ∀ g r, heldCell (cgpmI 2) u g r z = heldCell (cgpmI 3) (whole x) (fun _ => ⟨0, 0⟩) r z := by
      intro g r
      rw [heldCell_eq (cgpmTLaws Z 2) (hcc.viewReg hview), heldCell_eq (cgpmTLaws Z 3) hcc.reg,
        hcc.cell hview (by rw [hhead]; simp)]
    have hrowsEq : rws = rows.map some := by
      have hm : ∀ r, r ∈ rws ↔ r ∈ rows.map some := by
        intro r
        obtain ⟨z', -, hh, hp⟩ := present_iff (hcc.viewReg hview) (hx u hview)
        rw [hhead] at hh
        cases hh
        have h1 := (aligned_iff hcc _).1 hal u hview r
        rw [hp] at h1
        rw [hmemr, List.mem_map]
        change (∃ k : Int, heldCell (cgpmI 3) (whole x) (fun _ => ⟨0, 0⟩) r z = some (.num k)) ↔ _
        rw [heldCell_eq (cgpmTLaws Z 3) hcc.reg, hcc.cell hview (by rw [hhead]; simp)]
        constructor
        · rintro ⟨k, hk⟩
          obtain ⟨a, ha, e⟩ := h1.1 (by rw [hk]; simp)
          exact ⟨a, ha, e.symm⟩
        · rintro ⟨a, ha, rfl⟩
          obtain ⟨c, hc⟩ := Option.ne_none_iff_exists'.1 (h1.2 ⟨a, ha, rfl⟩)
          obtain ⟨k, rfl⟩ := (cgpmTLaws Z 2).whole _ _ z c (hcc.viewReg hview) hzZ hc
          exact ⟨k, hc⟩
      have hp : rws.Perm (rows.map some) := (List.perm_ext_iff_of_nodup (hsorted.imp before_ne)
        ((hrows.1.imp fun h => ne_of_lt h).map some fun a b h e => h (Option.some.inj e))).2 hm
      refine hp.eq_of_pairwise (fun a b _ _ h h' => rowLe_antisymm h h') (hsorted.imp before_rowLe) ?_
      rw [List.pairwise_map]
      exact hrows.1.imp fun h => by simp [Cpp.rowLe]; omega
    obtain ⟨p, hp⟩ := List.mem_iff_getElem?.1 hr
    obtain ⟨q, hq⟩ := List.mem_iff_getElem?.1 hs
    have hlk : rows.length = (xd[k]).length := by rw [← hrl, hrowsEq, List.length_map]
    have hplt : p < (xd[k]).length := by rw [← hlk]; exact (List.getElem?_eq_some_iff.1 hp).1
    have hqlt : q < (xd[k]).length := by rw [← hlk]; exact (List.getElem?_eq_some_iff.1 hq).1
    rw [hTo (by
        change env.unique (xl.assignments.map Int.ofNat) = (List.range (xd.map _).length).map Int.ofNat
        rw [hun, List.length_map, hlen]) i k v ((xd[k]).map Int.ofNat) hi (by
        change (xl.assignments.map Int.ofNat)[i]? = _
        rw [List.getElem?_map, hk]; rfl) (by
        change (xd.map fun numbers => numbers.map Int.ofNat)[k]? = _
        rw [List.getElem?_map, List.getElem?_eq_getElem hklt]; rfl) view' hview' hv' p q r s
        ((xd[k])[p] : Nat) ((xd[k])[q] : Nat) hp hq
        (by rw [List.getElem?_map, List.getElem?_eq_getElem hplt]; rfl)
        (by rw [List.getElem?_map, List.getElem?_eq_getElem hqlt]; rfl)]
    have := hsame p q (some r) (some s) _ _ (by rw [hrowsEq, List.getElem?_map, hp]; rfl)
      (by rw [hrowsEq, List.getElem?_map, hq]; rfl) (List.getElem?_eq_getElem hplt) (List.getElem?_eq_getElem hqlt)
    unfold SameCluster
    rw [show ((cgpmI 2).outputs u).headD 0 = z by rw [hhead]; rfl]
    simp only [hcell]
    constructor
    · intro e g
      exact this.1 (by exact_mod_cast e)
    · intro e
      exact_mod_cast this.2 (e fun _ => ⟨0, 0⟩)

/-- Two columns in one view, with two rows in different clusters. -/
example : Tidy [5] 3 (whole Concrete.mono) ∧ IsCrosscat Concrete.mono ∧
    (∀ v ∈ columns Concrete.mono, v ∉ [5]) ∧ Enumerates Concrete.sortedSet ∧ InOrder Concrete.sortedSet ∧
    Echoes Concrete.echo ∧ RowsInOrder Concrete.mono [0, 1] ∧
    Aligned Concrete.mono (fun r => ∃ k ∈ [(0 : Int), 1], r = some k) ∧ ∃ x' g', transitionCpp
      ⟨Concrete.sortedSet, List.dedup, Concrete.echo⟩ { N := some 1 } (Concrete.mono, Concrete.g7) =
        (.ok (), (x', g')) :=
  ⟨Concrete.mono_tidy, Concrete.mono_crosscat, Concrete.mono_plain, Concrete.sortedSet_enumerates,
    Concrete.sortedSet_inOrder, fun _ => rfl, Concrete.mono_rowsInOrder, Concrete.mono_aligned,
    Concrete.mono_transition⟩

end Cgpm2.Props
