import Verif.Lemmas.CppTotal
import Verif.Lemmas.ConcreteTotal
import Verif.Props.Export
import Verif.Props.ViewTotal

/-!
# C94: importing the answer of the C++ engine succeeds
-/

namespace Cgpm2.Props
open Spec Views

/-- C94: `_get_crosscat_updated` returns for every answer with metadata of the CrossCat and partitions
of its columns and rows, if the integers drawn for the cluster variables of new views are different
from each other and from the variables of the CrossCat. -/
theorem C94_import_partial {Z : List Var} {x : Crosscat} (h : Tidy Z 3 (whole x)) (hx : IsCrosscat x)
    (hz : ∀ v ∈ columns x, v ∉ Z) (unique : List Int → List Int) (hu : Enumerates unique)
    (rows : List Int) (hrows : RowsInOrder x rows) (hc : Complete x fun r => ∃ k ∈ rows, r = some k)
    (observations : Dict Var (Dict RowId Val)) (hobs : crosscatDataset x = .ok observations)
    (a : Views.Answer) (ha : Describes x a)
    (hp : Partitions (columns x).length rows.length a.assignments a.viewStates a.xd) (g : Rng)
    (hg : NoClashAmong ((columns x).length * (rows.length + 1)) g x) :
    ∃ x' g', updateCrosscat unique observations a (x, g) = (.ok (), (x', g')) :=
  update_total (cc_of_tidy h hx hz) hu hrows hc hobs ha hp g hg

/-- Two columns in one view, two rows, and an answer that puts the rows into different clusters. -/
example : Tidy [5] 3 (whole Concrete.mono) ∧ IsCrosscat Concrete.mono ∧
    (∀ v ∈ columns Concrete.mono, v ∉ [5]) ∧ Enumerates List.dedup ∧ RowsInOrder Concrete.mono [0, 1] ∧
    (Complete Concrete.mono fun r => ∃ k ∈ [(0 : Int), 1], r = some k) ∧
    crosscatDataset Concrete.mono = .ok Concrete.duoData ∧ Describes Concrete.mono Concrete.duoAnswer ∧
    Partitions (columns Concrete.mono).length [(0 : Int), 1].length Concrete.duoAnswer.assignments
      Concrete.duoAnswer.viewStates Concrete.duoAnswer.xd ∧
    NoClashAmong ((columns Concrete.mono).length * ([(0 : Int), 1].length + 1)) Concrete.gseq Concrete.mono :=
  ⟨Concrete.mono_tidy, Concrete.mono_crosscat, Concrete.mono_plain, Concrete.dedup_enumerates,
    Concrete.mono_rowsInOrder, Concrete.mono_complete', Concrete.mono_dataset, Concrete.mono_describes,
    Concrete.mono_partitions, Concrete.mono_apart⟩

/-- C51: `_get_crosscat_updated` realises the partitions.  For every answer with metadata of the
CrossCat and partitions of its columns and rows, and integers drawn as above, it returns a CrossCat
with the columns and cells of `x`, in which two columns share a view exactly when they have the same
number, and two rows share a cluster of the view exactly when the entry of `X_D` at the position of
the number gives them the same number. -/
theorem C51_realised_partial {Z : List Var} {x : Crosscat} (h : Tidy Z 3 (whole x)) (hx : IsCrosscat x)
    (hz : ∀ v ∈ columns x, v ∉ Z) (unique : List Int → List Int) (hu : Enumerates unique)
    (rows : List Int) (hrows : RowsInOrder x rows) (hc : Complete x fun r => ∃ k ∈ rows, r = some k)
    (observations : Dict Var (Dict RowId Val)) (hobs : crosscatDataset x = .ok observations)
    (a : Views.Answer) (ha : Describes x a)
    (hp : Partitions (columns x).length rows.length a.assignments a.viewStates a.xd) (g : Rng)
    (hg : NoClashAmong ((columns x).length * (rows.length + 1)) g x) :
    ∃ x' g', updateCrosscat unique observations a (x, g) = (.ok (), (x', g')) ∧ SameTable x x' ∧
      (∀ (i j : Nat) v w m n, (columns x)[i]? = some v → (columns x)[j]? = some w →
        a.assignments[i]? = some m → a.assignments[j]? = some n → (Together x' v w ↔ m = n)) ∧
      ∀ (i : Nat) v u, (columns x)[i]? = some v → a.assignments[i]? = some u →
        ∃ (k : Nat) (part : List Int) (view : View), (unique a.assignments)[k]? = some u ∧ a.xd[k]? = some part ∧
          view ∈ x'.cgpms ∧ v ∈ viewColumns view ∧
          ∀ (p q : Nat) r s, rows[p]? = some r → rows[q]? = some s →
            (SameCluster view (some r) (some s) ↔ part[p]? = part[q]?) := by
  obtain ⟨x', g', e⟩ := C94_import_partial h hx hz unique hu rows hrows hc observations hobs a ha hp g hg
  obtain ⟨h1, -, -, h2, h3, h4⟩ := C51_import_partial h hx hz unique hu rows hrows observations hobs a g g' e
  refine ⟨x', g', e, h1, h2, fun i v u hi hu' => ?_⟩
  obtain ⟨k, hk⟩ := List.mem_iff_getElem?.1 (((hu a.assignments).2 u).2 (List.mem_of_getElem? hu'))
  have hlt : k < a.xd.length := by
    rw [← h3]
    exact (List.getElem?_eq_some_iff.1 hk).1
  have hv : v ∈ columns x' := h1.cols.mem_iff.2 (List.mem_of_getElem? hi)
  obtain ⟨view, hview, hvv⟩ := mem_columns.1 hv
  refine ⟨k, _, view, hk, List.getElem?_eq_getElem hlt, hview, hvv, fun p q r s hr hs => ?_⟩
  have hlen := hp.rows _ (List.getElem_mem hlt)
  have hp' : p < (a.xd[k]).length := by rw [hlen]; exact (List.getElem?_eq_some_iff.1 hr).1
  have hq' : q < (a.xd[k]).length := by rw [hlen]; exact (List.getElem?_eq_some_iff.1 hs).1
  rw [h4 k u _ hk (List.getElem?_eq_getElem hlt) i v hu' hi view hview hvv p q r s _ _ hr hs
    (List.getElem?_eq_getElem hp') (List.getElem?_eq_getElem hq'), List.getElem?_eq_getElem hp',
    List.getElem?_eq_getElem hq', Option.some.injEq]

theorem ok_bind {α β : Type} {m : Except Err α} {f : α → Except Err β} {a : α} (h : m = .ok a) :
    (m >>= f) = f a := by
  rw [h]; rfl

theorem lift_run {σ α β : Type} {m : Except Err α} {f : α → Py σ β} {a : α} {s : σ} (h : m = .ok a) :
    (Py.lift m >>= f) s = f a s := by
  rw [h, Py.lift_bind]

theorem mapM_position {α : Type} [DecidableEq α] {l : List α} {cs : List α} (h : ∀ c ∈ cs, c ∈ l) :
    ∃ ks, cs.mapM (position l) = .ok ks := by
  obtain ⟨ks, h1, -⟩ := mapM_total (f := position l) (l := cs) (P := fun _ => True) fun c hc =>
    ⟨l.idxOf c, by unfold position; rw [if_pos (h c hc)], trivial⟩
  exact ⟨ks, h1⟩

/-- The numbers of the views of the columns are `0, …, n-1`. -/
theorem assignments_range {Z : List Var} {x : Crosscat} (hcc : CC Z x) {l : List Nat}
    (hl : l.length = (columns x).length)
    (hA : ∀ (i : Nat) o k, (columns x)[i]? = some o → l[i]? = some k →
      ∃ v, x.cgpms[k]? = some v ∧ o ∈ viewColumns v) (n : Nat) : n ∈ l ↔ n < x.cgpms.length := by
  constructor
  · intro hn
    obtain ⟨j, hj⟩ := List.mem_iff_getElem?.1 hn
    have hlt : j < (columns x).length := by
      rw [← hl]; exact (List.getElem?_eq_some_iff.1 hj).1
    obtain ⟨w, hw, -⟩ := hA j _ n (List.getElem?_eq_getElem hlt) hj
    exact (List.getElem?_eq_some_iff.1 hw).1
  · intro hlt
    have hw := List.getElem?_eq_getElem hlt
    obtain ⟨o, hoo⟩ := List.exists_mem_of_ne_nil _ (hcc.nonempty (List.getElem_mem hlt))
    obtain ⟨j, hj⟩ := List.mem_iff_getElem?.1 (mem_columns.2 ⟨_, List.getElem_mem hlt, hoo⟩)
    have hjl : j < l.length := by
      rw [hl]; exact (List.getElem?_eq_some_iff.1 hj).1
    obtain ⟨t, hmt, hot⟩ := hA j o _ hj (List.getElem?_eq_getElem hjl)
    rw [index_unique hcc.nodup hw hmt (columns_sub hoo) (columns_sub hot)]
    exact List.getElem_mem hjl

theorem dedup_range {l : List Nat} {n : Nat} (h : ∀ i, i ∈ l ↔ i < n) :
    (l.map Int.ofNat).dedup.length = n := by
  rw [List.dedup_map_of_injective (fun a b e => Int.ofNat.inj e), List.length_map]
  have : l.dedup.Perm (List.range n) := (List.perm_ext_iff_of_nodup (List.nodup_dedup l) List.nodup_range).2
    fun i => by rw [List.mem_dedup, h, List.mem_range]
  rw [this.length_eq, List.length_range]

/-- Every partition of the rows has a number for each row. -/
theorem xd_rows {Z : List Var} {x : Crosscat} (h : Tidy Z 3 (whole x)) (hx : IsCrosscat x)
    (hz : ∀ v ∈ columns x, v ∉ Z) {rows : List Int} (hn : rows.Nodup)
    (hal : Aligned x fun r => ∃ k ∈ rows, r = some k) :
    ∃ xd, Cpp.getXD (n := 2) x = .ok xd ∧ xd.length = x.cgpms.length ∧ ∀ part ∈ xd, part.length = rows.length := by
  have hcc := cc_of_tidy h hx hz
  obtain ⟨xd, hxd, hlen, hX⟩ := C50_row_partition Z 2 x h (fun _ => ⟨0, 0⟩) fun view hview => by
    obtain ⟨z, hz, e⟩ := hcc.head hview
    exact ⟨z, hz, by rw [e]; rfl⟩
  refine ⟨xd, hxd, hlen, fun part hpart => ?_⟩
  obtain ⟨k, hk⟩ := List.mem_iff_getElem?.1 hpart
  have hklt : k < x.cgpms.length := by rw [← hlen]; exact (List.getElem?_eq_some_iff.1 hk).1
  have hview := List.getElem_mem hklt
  obtain ⟨z, hzZ, hhead⟩ := hcc.head hview
  obtain ⟨rws, hrl, hsorted, hmemr, -, -⟩ := hX k _ z _ (List.getElem?_eq_getElem hklt) (by rw [hhead]; rfl) hk
  have hm : ∀ r, r ∈ rws ↔ r ∈ rows.map some := by
    intro r
    obtain ⟨z', -, hh, hp⟩ := present_iff (hcc.viewReg hview) (hx _ hview)
    rw [hhead] at hh
    cases hh
    have h1 := (aligned_iff hcc _).1 hal _ hview r
    rw [hp] at h1
    rw [hmemr, List.mem_map]
    change (∃ k : Int, heldCell (cgpmI 3) (whole x) (fun _ => ⟨0, 0⟩) r z = some (.num k)) ↔ _
    rw [heldCell_eq (cgpmTLaws Z 3) hcc.reg, hcc.cell hview (by rw [hhead]; simp)]
    constructor
    · rintro ⟨k, hk⟩
      obtain ⟨a, ha, e⟩ := h1.1 (by rw [hk]; simp)
      exact ⟨a, ha, e.symm⟩
    · rintro ⟨a, ha, rfl⟩
      obtain ⟨c, hc⟩ := Option.ne_none_iff_exists'.1 (h1.2 ⟨a, ha, rfl⟩)
      obtain ⟨k, rfl⟩ := (cgpmTLaws Z 2).whole _ _ z c (hcc.viewReg hview) hzZ hc
      exact ⟨k, hc⟩
  have hp : rws.Perm (rows.map some) := (List.perm_ext_iff_of_nodup (hsorted.imp before_ne)
    (hn.map (Option.some_injective _))).2 hm
  rw [← hrl, hp.length_eq, List.length_map]

/-- C94: `transition_cpp` returns, for an engine that answers with partitions of the columns and rows of
the table it is given.  The columns are Normal or Categorical, a categorical one has a number among
its values; all rows are integers, are in every view and have a cell in every column; one of `N` and
`S` is given; `cols`, `rowids` and the constraints name columns and rows of the CrossCat; and the
integers drawn for the cluster variables of new views are different from each other and from the
variables of the CrossCat. -/
theorem C94_transition_partial {Z : List Var} {x : Crosscat} (h : Tidy Z 3 (whole x)) (hx : IsCrosscat x)
    (hz : ∀ v ∈ columns x, v ∉ Z) (hs : Supported x) (hv : HasNumbers x)
    (rows : List Int) (hrows : RowsInOrder x rows) (hc : Complete x fun r => ∃ k ∈ rows, r = some k)
    (hal : Aligned x fun r => ∃ k ∈ rows, r = some k) (env : Surroundings) (hu : Enumerates env.unique)
    (hord : ListsSet env.ordered) (heng : Sane env.engine) (args : CppArgs)
    (hb : args.N ≠ none ∨ args.S ≠ none) (hcols : ∀ l, args.cols = some l → ∀ o ∈ l, o ∈ columns x)
    (hrids : ∀ l, args.rowids = some l → ∀ r ∈ l, ∃ k ∈ rows, r = some k)
    (hd : ∀ block ∈ args.con.dependent, ∀ c ∈ block, c ∈ columns x)
    (hi : ∀ cb ∈ args.con.scc, cb.1 ∈ columns x ∧ ∀ c ∈ cb.2, c ∈ columns x) (g : Rng)
    (hg : NoClashAmong ((columns x).length * (rows.length + 1)) g x) :
    ∃ x' g', transitionCpp env args (x, g) = (.ok (), (x', g')) := by
  have hcc := cc_of_tidy h hx hz
  have hlr := rowsInOrder_lists hrows
  have hcr : Complete x (· ∈ rows.map some) := fun o ho r hr => hc o ho r (by
      obtain ⟨k, hk, rfl⟩ := List.mem_map.1 hr
      exact ⟨k, hk, rfl⟩)
  obtain ⟨obs, mc, T, hobs, hmc, hT, n1, -, n3, hmd, n5, -, -⟩ := C90_table h hx hz hs env.ordered hord _ hlr hcr g
  obtain ⟨xd, hxd, hxl, hxr⟩ := xd_rows h hx hz (hrows.1.imp fun h => ne_of_lt h) hal
  obtain ⟨xl, hXL, -, -, hA1, hA2, -, hvs, -⟩ := C91_state h hx hz hs hv env.ordered hord args.con hd hi obs hobs mc hmc xd hxd
  obtain ⟨b, hbud⟩ : ∃ b, Cpp.budget args.N args.S = .ok b := by
    rcases hN : args.N with _ | n <;> rcases hS : args.S with _ | s
    · simp [hN, hS] at hb
    all_goals exact ⟨_, rfl⟩
  obtain ⟨cols, hcol⟩ : ∃ cols : List Nat, (match args.cols with
      | none => .ok []
      | some l => l.mapM (position (distributionOutputs x)) : Except Err (List Nat)) = .ok cols := by
    rcases hc' : args.cols with _ | l
    · exact ⟨_, rfl⟩
    · dsimp only
      rw [distributionOutputs_eq]
      exact mapM_position (hcols l hc')
  obtain ⟨rids, hrid⟩ : ∃ rids : List Nat, (match args.rowids with
      | none => .ok []
      | some l => do
        let rowids ← rowidsMapping obs
        l.mapM (position rowids) : Except Err (List Nat)) = .ok rids := by
    rcases hr : args.rowids with _ | l
    · exact ⟨_, rfl⟩
    · dsimp only
      obtain ⟨D, hD1, hD⟩ := crosscatDataset_eq hcc
      rw [hobs] at hD1
      cases hD1
      rw [rowidsMapping_eq hcc hD hlr hcr]
      exact mapM_position fun r hr' => by
        obtain ⟨k, hk, rfl⟩ := hrids l hr r hr'
        exact List.mem_map.2 ⟨k, hk, rfl⟩
  have hgiven : given env args x b.1 b.2 cols obs =
      .ok ⟨mc, T, xl, xd, args.seed, args.kernels, b.1, b.2, cols, rids⟩ := by
    refine (ok_bind hrid).trans ?_
    rw [hmc]
    change (getT x mc obs >>= _) = _
    rw [hT]
    change (Cpp.getXD (n := 2) x >>= _) = _
    rw [hxd]
    change (getXL x mc xd args.con >>= _) = _
    rw [hXL]
    rfl
  have hTlen : T.length = rows.length := by rw [n5, List.length_map]
  obtain ⟨reply, hr, hP⟩ := heng ⟨mc, T, xl, xd, args.seed, args.kernels, b.1, b.2, cols, rids⟩ (by
    refine ⟨?_, ?_, ?_, ?_⟩
    · simp [hA1, n1]
    · rw [dedup_range (assignments_range hcc hA1 hA2), List.length_map, hxl]
    · simp [hvs, hxl]
    · intro part hpart
      obtain ⟨p, hp, rfl⟩ := List.mem_map.1 hpart
      rw [List.length_map, hxr p hp, hTlen])
  have hne : obs ≠ [] := by
    obtain ⟨D, h1, -⟩ := crosscatDataset_eq hcc
    rw [hobs] at h1
    cases h1
    exact fun e => columns_ne hcc (List.map_eq_nil_iff.1 e)
  have hP : Partitions (columns x).length rows.length reply.assignments reply.viewStates reply.xd := by
    have := hP
    rwa [hTlen, n1] at this
  obtain ⟨x', g', e⟩ := C94_import_partial h hx hz env.unique hu rows hrows hc obs hobs (reply.answer mc)
    ⟨n1, fun i o p hi' hp => by
      have hlt : i < mc.columnMetadata.length := by
        rw [n3]; exact (List.getElem?_eq_some_iff.1 hi').1
      obtain ⟨h1, h2⟩ := (hmd i o hi').2.2 _ p (List.getElem?_eq_getElem hlt) hp
      change (_ ∧ (mc.columnMetadata.map _)[i]? = _) ∨ (_ ∧ (mc.columnMetadata.map _)[i]? = _)
      rw [List.getElem?_map, List.getElem?_eq_getElem hlt]
      rcases hs o (List.mem_of_getElem? hi') p hp with hk | hk
      · exact .inl ⟨hk, congrArg some (h1.2 hk)⟩
      · exact .inr ⟨hk, congrArg some (h2.2 hk)⟩⟩ hP g hg
  refine ⟨x', g', ?_⟩
  unfold transitionCpp
  rw [Py.get_bind]
  dsimp only
  rw [hbud, Py.lift_bind]
  dsimp only
  refine (lift_run hcol).trans ?_
  rw [hobs, Py.lift_bind]
  dsimp only
  rw [if_neg hne, hgiven, Py.lift_bind]
  dsimp only
  rw [hr, Py.lift_bind]
  exact e

/-- The other hypotheses; the engine is one that answers with what it is given. -/
example : Supported Concrete.mono ∧ HasNumbers Concrete.mono ∧
    (Aligned Concrete.mono fun r => ∃ k ∈ [(0 : Int), 1], r = some k) ∧ Sane Concrete.echo ∧
    InOrder Concrete.sortedSet ∧ ListsSet List.dedup ∧ Echoes Concrete.echo :=
  ⟨Concrete.mono_supported, Concrete.mono_numbers, Concrete.mono_aligned, fun _ hG => ⟨_, rfl, hG⟩,
    Concrete.sortedSet_inOrder, Concrete.dedup_listsSet, fun _ => rfl⟩

/-- C92: an engine that answers with the views and clusters it was given returns a CrossCat with the
same views and clusters, under the conditions above. -/
theorem C92_returns_partial {Z : List Var} {x : Crosscat} (h : Tidy Z 3 (whole x)) (hx : IsCrosscat x)
    (hz : ∀ v ∈ columns x, v ∉ Z) (hs : Supported x) (hv : HasNumbers x)
    (rows : List Int) (hrows : RowsInOrder x rows) (hc : Complete x fun r => ∃ k ∈ rows, r = some k)
    (hal : Aligned x fun r => ∃ k ∈ rows, r = some k) (env : Surroundings) (hu : Enumerates env.unique)
    (ho : InOrder env.unique) (hord : ListsSet env.ordered) (hecho : Echoes env.engine) (args : CppArgs)
    (hb : args.N ≠ none ∨ args.S ≠ none) (hcols : ∀ l, args.cols = some l → ∀ o ∈ l, o ∈ columns x)
    (hrids : ∀ l, args.rowids = some l → ∀ r ∈ l, ∃ k ∈ rows, r = some k)
    (hd : ∀ block ∈ args.con.dependent, ∀ c ∈ block, c ∈ columns x)
    (hi : ∀ cb ∈ args.con.scc, cb.1 ∈ columns x ∧ ∀ c ∈ cb.2, c ∈ columns x) (g : Rng)
    (hg : NoClashAmong ((columns x).length * (rows.length + 1)) g x) :
    ∃ x' g', transitionCpp env args (x, g) = (.ok (), (x', g')) ∧ SameTable x x' ∧
      (∀ v w, v ∈ columns x → w ∈ columns x → (Together x' v w ↔ Together x v w)) ∧
      ∀ view ∈ x.cgpms, ∀ view' ∈ x'.cgpms, ∀ v, v ∈ viewColumns view → v ∈ viewColumns view' →
        ∀ r ∈ rows, ∀ s ∈ rows, (SameCluster view' (some r) (some s) ↔ SameCluster view (some r) (some s)) := by
  obtain ⟨x', g', e⟩ := C94_transition_partial h hx hz hs hv rows hrows hc hal env hu hord
    (fun G hG => ⟨_, hecho G, hG⟩) args hb hcols hrids hd hi g hg
  exact ⟨x', g', e, (C89_table_kept h hx hz env args g g' e).1,
    C92_round_trip h hx hz env hu ho hecho rows hrows hal args g g' e⟩

/-- C94 fails for other integers: if the number of the first column is the first one, the column is not
alone in its view, and the integer drawn is a variable of the CrossCat, then `_get_crosscat_updated`
raises. -/
theorem C94_import_violated {Z : List Var} {x : Crosscat} (h : Tidy Z 3 (whole x)) (hx : IsCrosscat x)
    (hz : ∀ v ∈ columns x, v ∉ Z) (unique : List Int → List Int)
    (observations : Dict Var (Dict RowId Val)) (a : Views.Answer) (u : Int) (o w : Var)
    (hu : (unique a.assignments).head? = some u) (ha : a.assignments.head? = some u)
    (ho : (columns x).head? = some o) (hw : w ≠ o) (ht : Together x o w) (g : Rng)
    (hg : drawnInt g 0 ∈ (cgpmI 3).outputs (whole x)) :
    ∃ e s, updateCrosscat unique observations a (x, g) = (.error e, s) := by
  rcases hr : updateCrosscat unique observations a (x, g) with ⟨e | ⟨⟩, s⟩
  · exact ⟨e, s, rfl⟩
  exfalso
  have he := hr
  unfold updateCrosscat at he
  obtain ⟨⟨xa, ga⟩, s1, e1, he⟩ := run_bind he
  cases e1
  dsimp only at he
  obtain ⟨⟨⟩, s1, e1, he⟩ := run_bind he
  obtain ⟨hcheck, rfl⟩ := lift_ok e1
  obtain ⟨rowids, s1, e1, he⟩ := run_bind he
  obtain ⟨hmap, rfl⟩ := lift_ok e1
  obtain ⟨⟨⟩, s1, e1, he⟩ := run_bind he
  obtain ⟨us, s2, e2, he⟩ := run_bind he
  rw [Py.assert_apply] at e1
  split at e1
  swap
  · cases e1
  rename_i hlen
  cases e1
  rcases hq : unique a.assignments with _ | ⟨u', us'⟩
  · rw [hq] at hu; cases hu
  rw [hq] at hu hlen e2
  cases hu
  rcases hq' : a.assignments with _ | ⟨u'', as⟩
  · rw [hq'] at ha; cases ha
  rw [hq'] at ha hlen e2
  cases ha
  rcases hq2 : a.xd with _ | ⟨part, xd⟩
  · rw [hq2] at hlen; cases hlen
  rcases hq3 : columns x with _ | ⟨o', os⟩
  · rw [hq3] at ho; cases ho
  rw [hq3] at ho
  cases ho
  rw [hq2] at e2
  have hblock : ∃ b bs, Cpp.partitionToBlocks (u :: us') (u :: as) = (0 :: b) :: bs := by
    unfold Cpp.partitionToBlocks
    rw [List.map_cons, List.zipIdx_cons, List.filter_cons, if_pos (by simp), List.map_cons]
    exact ⟨_, _, rfl⟩
  obtain ⟨b, bs, hblock⟩ := hblock
  rw [hblock, List.zip_cons_cons] at e2
  obtain ⟨⟨⟩, s3, e3, -⟩ := run_bind e2
  dsimp only at e3
  unfold moveBlock at e3
  obtain ⟨ms, s4, e4, e3⟩ := run_bind e3
  obtain ⟨hms, rfl⟩ := lift_ok e4
  rw [distributionOutputs_eq, hq3] at hms
  have hall := numbered_all hms
  cases hall with
  | cons h1 h2 =>
    cases h1
    dsimp only at e3
    obtain ⟨⟨⟩, s5, e5, -⟩ := run_bind e3
    obtain ⟨x1, s6, e6, -⟩ := run_bind e5
    obtain ⟨e, s, e7⟩ := C93_singleton_violated Z x h hx hz o w hw ht g hg
    rw [e7] at e6
    cases e6

/-- With a random state whose integers are 5, the cluster variable of the view. -/
example : (List.dedup Concrete.duoAnswer.assignments).head? = some 0 ∧
    Concrete.duoAnswer.assignments.head? = some 0 ∧ (columns Concrete.mono).head? = some 1 ∧
    Together Concrete.mono 1 2 ∧ drawnInt Concrete.g5 0 ∈ (cgpmI 3).outputs (whole Concrete.mono) :=
  ⟨rfl, rfl, rfl, Concrete.mono_with, Concrete.mono_clash⟩

end Cgpm2.Props
