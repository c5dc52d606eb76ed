import Verif.Lemmas.CppCrosscat
import Verif.Lemmas.ConcretePane

/-!
# Properties C48, C49, C50, C52, C75: what is handed to the C++ engine
-/

namespace Cgpm2.Props
open Spec Concrete

/-- C48: whatever the order in which Python enumerates the set of assignments, the blocks are
non-empty, every position is in exactly one block, and two positions share a block exactly when
their assignments are equal. -/
theorem C48_blocks (unique assignments : List Int)
    (hset : unique.Nodup ∧ ∀ a, a ∈ unique ↔ a ∈ assignments) :
    (Cpp.partitionToBlocks unique assignments).flatten.Perm (List.range assignments.length) ∧
    (∀ b ∈ Cpp.partitionToBlocks unique assignments, b ≠ [] ∧ b.Pairwise (· < ·)) ∧
    ∀ i j (hi : i < assignments.length) (hj : j < assignments.length),
      (∃ b ∈ Cpp.partitionToBlocks unique assignments, i ∈ b ∧ j ∈ b) ↔
        assignments[i] = assignments[j] := by
  rw [blocks_eq]
  refine ⟨?_, ?_, ?_⟩
  · rw [← List.flatMap_def]
    have := flatMap_filter_perm (fun i => (assignments[i]?).getD 0) unique hset.1
      (List.range assignments.length) (fun i hi => by
        rw [List.mem_range] at hi
        rw [List.getElem?_eq_getElem hi, Option.getD_some, hset.2]
        exact List.getElem_mem hi)
    refine List.Perm.trans (List.Perm.of_eq ?_) this
    apply List.flatMap_congr
    intro u _
    apply List.filter_congr
    intro i hi
    rw [List.mem_range] at hi
    rw [List.getElem?_eq_getElem hi]
    simp
  · intro b hb
    obtain ⟨u, hu, rfl⟩ := List.mem_map.1 hb
    refine ⟨?_, List.Pairwise.filter _ List.pairwise_lt_range⟩
    obtain ⟨i, hi, he⟩ := List.mem_iff_getElem.1 ((hset.2 u).1 hu)
    apply List.ne_nil_of_mem (a := i)
    simp [hi, he]
  · intro i j hi hj
    constructor
    · rintro ⟨b, hb, h1, h2⟩
      obtain ⟨u, hu, rfl⟩ := List.mem_map.1 hb
      simp [hi] at h1
      simp [hj] at h2
      rw [h1, h2]
    · intro h
      refine ⟨_, List.mem_map.2 ⟨assignments[i], (hset.2 _).2 (List.getElem_mem hi), rfl⟩, ?_, ?_⟩
      · simp [hi]
      · simp [hj, h]

/-- The hypotheses are met. -/
example : Cpp.partitionToBlocks [7, 3] [3, 7, 3] = [[1], [0, 2]] := by decide
example : ([7, 3] : List Int).Nodup ∧ ∀ a, a ∈ ([7, 3] : List Int) ↔ a ∈ ([3, 7, 3] : List Int) :=
  ⟨by decide, fun a => by simp; tauto⟩

/-- C49: for a categorical column whose values are missing or among `0, …, k-1` the tables are
made without failure, missing values stay missing, and the others get the codes `0, …, n-1` where
`n` is how many different ones there are; different values get different codes, and the reverse
table maps the code back to the value.  `ordered` is the list `sorted(set(data))`, in any order. -/
theorem C49_categorical (data ordered : List Val) (k : Nat)
    (hvalid : ∀ q, Val.num q ∈ data → ∃ j : Int, q = j ∧ 0 ≤ j ∧ j < k)
    (hset : (∀ v, v ∈ ordered ↔ v ∈ data) ∧ (Cpp.numbers ordered).Nodup) :
    ∃ m, Cpp.createMetadata ordered .categorical k = .ok m ∧
      Cpp.valueToCode m .nan = .ok .nan ∧
      (∀ j : Int, Val.num j ∈ data → ∃ i : Nat, i < (Cpp.numbers data).dedup.length ∧
        Cpp.valueToCode m (.num j) = .ok (.num i) ∧
        Dict.get? m.valueToCode (CoreDsl.decimal i) = some (CoreDsl.decimal j)) ∧
      (∀ j j' : Int, Val.num j ∈ data → Val.num j' ∈ data →
        Cpp.valueToCode m (.num j) = Cpp.valueToCode m (.num j') → j = j') ∧
      ∀ i < (Cpp.numbers data).dedup.length, ∃ j : Int, Val.num j ∈ data ∧
        Cpp.valueToCode m (.num j) = .ok (.num (i : ℚ)) := by
  have hnum : ∀ (l : List Val) (q : ℚ), q ∈ Cpp.numbers l ↔ Val.num q ∈ l := by
    intro l q
    unfold Cpp.numbers
    rw [List.mem_filterMap]
    constructor
    · rintro ⟨v, hv, h⟩
      cases v with
      | nan => cases h
      | num p => cases h; exact hv
    · exact fun h => ⟨_, h, rfl⟩
  have hmem : ∀ q, q ∈ Cpp.numbers ordered ↔ Val.num q ∈ data := fun q => by rw [hnum, hset.1]
  set cats := Cpp.numbers ordered with hcats
  have hlen : cats.length = (Cpp.numbers data).dedup.length := by
    apply List.Perm.length_eq
    rw [List.perm_ext_iff_of_nodup hset.2 (List.nodup_dedup _)]
    intro q
    rw [hmem, List.mem_dedup, hnum]
  rw [← hlen]
  set codes := cats.map fun c => CoreDsl.decimal (truncate c) with hcodes
  have hwhole : ∀ q ∈ cats, ∃ j : Int, q = j ∧ 0 ≤ j ∧ j < k := fun q hq => hvalid q ((hmem q).1 hq)
  have hinj : ∀ q ∈ cats, ∀ p ∈ cats, CoreDsl.decimal (truncate q) = CoreDsl.decimal (truncate p) →
      q = p := by
    intro q hq p hp he
    obtain ⟨j, rfl, -⟩ := hwhole q hq
    obtain ⟨j', rfl, -⟩ := hwhole p hp
    have := decimal_inj he
    rw [truncate_intCast, truncate_intCast] at this
    rw [this]
  have hcn : codes.Nodup := List.Nodup.map_on hinj hset.2
  have hok : ∀ c ∈ cats, 0 ≤ c ∧ c < (k : ℚ) := by
    intro c hc
    obtain ⟨j, rfl, h1, h2⟩ := hwhole c hc
    exact ⟨by exact_mod_cast h1, by exact_mod_cast h2⟩
  have hidx : ∀ j : Int, (j : ℚ) ∈ cats → codes[cats.idxOf (j : ℚ)]? = some (CoreDsl.decimal j) := by
    intro j hj
    have hlt := List.idxOf_lt_length_of_mem hj
    rw [hcodes, List.getElem?_map, List.getElem?_eq_getElem hlt, List.getElem_idxOf]
    simp [truncate_intCast]
  have hget : ∀ j : Int, (j : ℚ) ∈ cats →
      Dict.get? (Cpp.dictZip codes (List.range codes.length)) (CoreDsl.decimal j) =
        some (cats.idxOf (j : ℚ)) := by
    intro j hj
    have hlt := List.idxOf_lt_length_of_mem hj
    unfold Cpp.dictZip
    rw [dictZip_get _ _ _ hcn (by simp) (hidx j hj)]
    rw [List.getElem?_range (by rw [hcodes, List.length_map]; exact hlt)]
  have hcode : ∀ (m : Cpp.ColMeta), m.codeToValue = Cpp.dictZip codes (List.range codes.length) →
      ∀ j : Int, (j : ℚ) ∈ cats → Cpp.valueToCode m (.num j) = .ok (.num (cats.idxOf (j : ℚ) : ℚ)) := by
    intro m hm j hj
    have hg := hget j hj
    rw [← hm] at hg
    have hne : m.codeToValue ≠ [] := by
      intro h0
      rw [h0] at hg
      cases hg
    unfold Cpp.valueToCode
    simp only [truncate_intCast]
    rw [if_pos hne]
    have hh : Dict.has m.codeToValue (CoreDsl.decimal j) = true := by
      rw [Dict.has, hg]; rfl
    simp only [hh, not_true_eq_false, if_false, Dict.getItem, hg]
    rfl
  refine ⟨⟨.categorical, Cpp.dictZip ((List.range codes.length).map fun n : Nat => CoreDsl.decimal n)
    codes, Cpp.dictZip codes (List.range codes.length)⟩, ?_, rfl, ?_, ?_, ?_⟩
  · unfold Cpp.createMetadata
    simp only [← hcats]
    rw [if_neg (not_not.2 hok)]
  · intro j hj
    have hjc := (hmem j).2 hj
    have hlt := List.idxOf_lt_length_of_mem hjc
    refine ⟨cats.idxOf (j : ℚ), hlt, hcode _ rfl j hjc, ?_⟩
    have hnd : ((List.range codes.length).map fun n : Nat => CoreDsl.decimal n).Nodup := by
      refine List.Nodup.map_on (fun a _ b _ h => ?_) List.nodup_range
      have := decimal_inj h
      omega
    have hlc : cats.idxOf (j : ℚ) < codes.length := by rw [hcodes, List.length_map]; exact hlt
    change Dict.get? (Cpp.dictZip _ codes) _ = _
    unfold Cpp.dictZip
    have hi : ((List.range codes.length).map fun n : Nat => CoreDsl.decimal n)[cats.idxOf (j : ℚ)]? =
        some (CoreDsl.decimal (cats.idxOf (j : ℚ) : Nat)) := by
      rw [List.getElem?_map, List.getElem?_range hlc]
      rfl
    rw [dictZip_get _ _ _ hnd (by simp) hi, hidx j hjc]
  · intro j j' hj hj' he
    rw [hcode _ rfl j ((hmem j).2 hj), hcode _ rfl j' ((hmem j').2 hj')] at he
    injection he with he
    injection he with he
    have : cats.idxOf (j : ℚ) = cats.idxOf (j' : ℚ) := by exact_mod_cast he
    have := (List.idxOf_inj ((hmem j).2 hj)).1 this
    exact_mod_cast this
  · intro i hi
    have hm : cats[i] ∈ cats := List.getElem_mem hi
    obtain ⟨j, hj, -⟩ := hwhole _ hm
    rw [hj] at hm
    refine ⟨j, (hmem j).1 hm, ?_⟩
    rw [hcode _ rfl j hm, ← hj, hset.2.idxOf_getElem _ hi]

/-- C49: the values of a numerical column are handed over as they are. -/
theorem C49_normal (ordered : List Val) (k : Nat) (v : Val) :
    ∃ m, Cpp.createMetadata ordered .normal k = .ok m ∧ Cpp.valueToCode m v = .ok v :=
  ⟨_, rfl, by cases v <;> rfl⟩

/-- The hypotheses are met by a column with the values 2, NaN, 0, 2. -/
example : ∃ m, Cpp.createMetadata [.num 0, .nan, .num 2] .categorical 3 = .ok m ∧
    Cpp.valueToCode m (.num 2) = .ok (.num 1) :=
  ⟨_, rfl, rfl⟩
example : (∀ q, Val.num q ∈ [Val.num 2, .nan, .num 0, .num 2] →
      ∃ j : Int, q = j ∧ 0 ≤ j ∧ j < (3 : Nat)) ∧
    (∀ v, v ∈ [Val.num 0, .nan, .num 2] ↔ v ∈ [Val.num 2, .nan, .num 0, .num 2]) ∧
    (Cpp.numbers [Val.num 0, .nan, .num 2]).Nodup := by
  refine ⟨fun q hq => ?_, fun v => by simp; tauto, by simp [Cpp.numbers]⟩
  simp at hq
  rcases hq with rfl | rfl | rfl
  · exact ⟨2, by norm_num⟩
  · exact ⟨0, by norm_num⟩
  · exact ⟨2, by norm_num⟩

/-- C75: `get_dataset` lists every held cell of a column, and nothing else, each row once. -/
theorem C75_dataset (Z : List Var) (n : Nat) (c : Cgpm n) (h : Tidy Z n c) (g : Rng) (o : Var)
    (ho : o ∈ (cgpmI n).outputs c) :
    ∃ l, Cpp.getDataset c o = .ok l ∧ (l.map Prod.fst).Nodup ∧
      ∀ r d, (r, d) ∈ l ↔ ∃ x, heldCell (cgpmI n) c g r o = some x ∧ d = [(o, x)] := by
  obtain ⟨l, h1, h2, h3⟩ := getDataset_eq (tidy_reg h) ho
  refine ⟨l, h1, h2, fun r d => ?_⟩
  rw [h3, heldCell_eq (cgpmTLaws Z n) (tidy_reg h)]

/-- C75: `get_crosscat_dataset_one` lists the values of a column in the order of the rows. -/
theorem C75_column (Z : List Var) (n : Nat) (c : Cgpm n) (h : Tidy Z n c) (g : Rng) (o : Var)
    (ho : o ∈ (cgpmI n).outputs c) :
    ∃ l : List (RowId × Val), Cpp.datasetOne c o = .ok (l.map Prod.snd) ∧
      (l.map Prod.fst).Pairwise Before ∧
      ∀ r x, (r, x) ∈ l ↔ heldCell (cgpmI n) c g r o = some x := by
  obtain ⟨l, h1, h2, h3⟩ := datasetOne_eq (tidy_reg h) ho
  refine ⟨l, h1, h2, fun r x => ?_⟩
  rw [h3, heldCell_eq (cgpmTLaws Z n) (tidy_reg h)]

/-- C50: for each view, the rows that have a cluster are given a number each, in the order of the
rows; the numbers are `0, …, n-1` without gaps, and two rows get the same one exactly when they
are in the same cluster.  The first output of a view is its cluster variable. -/
theorem C50_row_partition (Z : List Var) (n : Nat) (p : Product (Cgpm n))
    (h : Tidy Z (n + 1) (.product p : Node (Cgpm n))) (g : Rng)
    (hz : ∀ view ∈ p.cgpms, ∃ z ∈ Z, ((cgpmI n).outputs view).head? = some z) :
    ∃ XD : List (List Nat), Cpp.getXD p = .ok XD ∧ XD.length = p.cgpms.length ∧
      ∀ (i : Nat) view z (numbers : List Nat), p.cgpms[i]? = some view → ((cgpmI n).outputs view).head? = some z →
        XD[i]? = some numbers →
        ∃ rows : List RowId, rows.length = numbers.length ∧ rows.Pairwise Before ∧
          (∀ r, r ∈ rows ↔ ∃ k : Int,
            heldCell (cgpmI (n + 1)) (.product p : Node (Cgpm n)) g r z = some (.num k)) ∧
          NoGaps (numbers.map Int.ofNat) ∧
          ∀ (j j' : Nat) r r' a a', rows[j]? = some r → rows[j']? = some r' → numbers[j]? = some a →
            numbers[j']? = some a' →
            (a = a' ↔ heldCell (cgpmI (n + 1)) (.product p : Node (Cgpm n)) g r z =
              heldCell (cgpmI (n + 1)) (.product p : Node (Cgpm n)) g r' z) := by
  have hreg := tidy_reg h
  have hcell : ∀ r v, heldCell (cgpmI (n + 1)) (.product p : Node (Cgpm n)) g r v =
      (cgpmTab Z (n + 1)).cell (.product p : Node (Cgpm n)) r v :=
    fun r v => heldCell_eq (cgpmTLaws Z (n + 1)) hreg g r v
  have hone : ∀ view ∈ p.cgpms, ∃ l : List (RowId × Val),
      Cpp.datasetOne (n := n + 1) (.product p : Node (Cgpm n)) (((cgpmI n).outputs view).headD 0) =
        .ok (l.map Prod.snd) ∧ (l.map Prod.fst).Pairwise Before ∧
      ∀ r x, (r, x) ∈ l ↔ (cgpmTab Z (n + 1)).cell (.product p : Node (Cgpm n)) r
        (((cgpmI n).outputs view).headD 0) = some x := by
    intro view hv
    obtain ⟨z, -, hh⟩ := hz view hv
    refine datasetOne_eq hreg ?_
    change _ ∈ p.cgpms.flatMap (cgpmI n).outputs
    refine List.mem_flatMap.2 ⟨view, hv, ?_⟩
    rw [List.headD_eq_head?_getD, hh]
    exact List.mem_of_mem_head? hh
  choose! L h1 h2 h3 using hone
  choose K hK1 hK2 hK3 using renumber_eq
  refine ⟨p.cgpms.map fun view => ((L view).map Prod.snd).map fun x =>
    (K ((L view).map Prod.snd)).idxOf x, ?_, by simp, ?_⟩
  · unfold Cpp.getXD
    rw [mapM_ok_map _ (fun view => (L view).map Prod.snd) _ h1]
    change List.mapM Cpp.renumber _ = _
    rw [mapM_ok_map _ _ _ fun l _ => hK3 l, List.map_map]
    rfl
  · intro i view z numbers hi hh hx
    have hv : view ∈ p.cgpms := List.mem_of_getElem? hi
    rw [List.getElem?_map, hi] at hx
    cases hx
    have hd : ((cgpmI n).outputs view).headD 0 = z := by
      rw [List.headD_eq_head?_getD, hh]; rfl
    have hzZ : z ∈ Z := by
      obtain ⟨z', hz', he⟩ := hz view hv
      rw [hh] at he
      cases he
      exact hz'
    have hmem := h3 view hv
    rw [hd] at hmem
    refine ⟨(L view).map Prod.fst, by simp, h2 view hv, ?_, ?_, ?_⟩
    · intro r
      rw [List.mem_map]
      constructor
      · rintro ⟨⟨r', x⟩, hm, rfl⟩
        have hc := (hmem r' x).1 hm
        obtain ⟨k, rfl⟩ := (cgpmTLaws Z (n + 1)).whole _ r' z x hreg hzZ hc
        exact ⟨k, by rw [hcell]; exact hc⟩
      · rintro ⟨k, hk⟩
        rw [hcell] at hk
        exact ⟨(r, .num k), (hmem _ _).2 hk, rfl⟩
    · have := noGaps_idxOf (hK1 ((L view).map Prod.snd)) (hK2 ((L view).map Prod.snd))
      simpa [List.map_map, Function.comp_def] using this
    · intro j j' r r' a a' hr hr' ha ha'
      rw [List.getElem?_map] at hr hr'
      obtain ⟨⟨r1, x⟩, hj, rfl⟩ := Option.map_eq_some_iff.1 hr
      obtain ⟨⟨r2, x'⟩, hj', rfl⟩ := Option.map_eq_some_iff.1 hr'
      simp only [List.getElem?_map, hj, hj', Option.map_some, Option.some.injEq] at ha ha'
      rw [hcell, hcell, (hmem r1 x).1 (List.mem_of_getElem? hj),
        (hmem r2 x').1 (List.mem_of_getElem? hj'), ← ha, ← ha', Option.some.injEq]
      constructor
      · intro he
        refine (List.idxOf_inj ((hK2 _ x).2 ?_)).1 he
        exact List.mem_map.2 ⟨_, List.mem_of_getElem? hj, rfl⟩
      · intro he
        rw [he]

/-- The hypotheses are met by a product of one view holding three rows in two clusters. -/
example : Tidy [5] 3 (.product ⟨[.flexMix pane2]⟩ : Node (Node (Node Prim))) ∧
    Cpp.getXD (n := 2) ⟨[(.flexMix pane2 : Node (Node Prim))]⟩ = .ok [[0, 1, 0]] ∧
    Cpp.datasetOne (n := 3) (.product ⟨[.flexMix pane2]⟩ : Node (Node (Node Prim))) 1 =
      .ok [.num 2, .num 1, .num 2] :=
  ⟨.product (n := 2) (cs := [(.flexMix pane2 : Node (Node Prim))]) (by
      intro c hc
      rw [List.mem_singleton.1 hc]
      exact pane2_tidy) (by simp) rfl, rfl, rfl⟩

/-- C52, the part that holds: with N given the engine runs N steps (without a time limit when S is
not given), with S given it has the time limit S (and 150000 steps when N is not given). -/
theorem C52_partial (n s : Int) : Cpp.budget (some n) none = .ok (n, -1) ∧
    Cpp.budget (some n) (some s) = .ok (n, s) ∧
    Cpp.budget none (some s) = .ok (150000, s) := ⟨rfl, rfl, rfl⟩

/-- C52 is violated: with neither given, `transition_cpp` does not run one step but raises. -/
theorem C52_violated : Cpp.budget none none = .error .assertionError := rfl

end Cgpm2.Props
