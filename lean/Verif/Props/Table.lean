import Verif.Lemmas.Accept
import Verif.Lemmas.FreeRows
import Verif.Lemmas.ConcreteTable
import Verif.Lemmas.TidyLaws

/-!
# Properties C22, C27, C28, C29 and C69: a model without inputs holds a table of cells

All theorems are about models built to any depth (`Tidy`).  Examples use `Concrete.view`, a
flexible mixture of blocks of two columns, and `Concrete.finView`, a finite one.
-/

namespace Cgpm2.Props
open Spec

variable {Z : List Var} {n : Nat}

/-! ## C28 observe and unobserve are inverse -/

/-- An observation that fits is accepted for any row of which nothing is held. -/
theorem C28_accepts {c : Cgpm n} (h : Tidy Z n c) {r : RowId} (hr : HoldsNothing (cgpmI n) c r)
    {o : Dict Var Val} (hn : (Dict.keys o).Nodup) (ho : ∀ v ∈ Dict.keys o, v ∈ (cgpmI n).outputs c)
    (hf : Fits n c o) (g : Rng) : ((cgpmI n).observe r o [] (c, g)).1 = .ok () := by
  have hreg := tidy_reg h
  obtain ⟨s', g', h1⟩ := fits_acc Z n c r o g hreg ((holdsNothing_iff (cgpmTLaws Z n) hreg r).1 hr) hn hf
  rw [only_self ho] at h1
  rw [h1]

/-- After an accepted observation of a new row, `unobserve` hands back exactly what was observed
(and, for a mixture that was not given a cluster, the cluster it chose), and afterwards every
sequence of calls is answered as before the observation. -/
theorem C28_inverse {c c' : Cgpm n} (h : Tidy Z n c) {r : RowId}
    (hr : HoldsNothing (cgpmI n) c r) {o i : Dict Var Val} (hw : WholeClusters Z o) {g g' : Rng}
    (ho : (cgpmI n).observe r o i (c, g) = (.ok (), (c', g'))) (g'' : Rng) :
    ∃ ob c2, (cgpmI n).unobserve r (c', g'') = (.ok (ob, []), (c2, g'')) ∧
      (∀ v ∈ (cgpmI n).outputs c, ∀ x, Dict.get? o v = some x → Dict.get? ob v = some x) ∧
      (∀ v x, Dict.get? ob v = some x →
        v ∈ (cgpmI n).outputs c ∧ (Dict.get? o v = some x ∨ (Dict.get? o v = none ∧ v ∈ Z))) ∧
      ∀ as g, answers (cgpmI n) as (c2, g) = answers (cgpmI n) as (c, g) := by
  have hreg := tidy_reg h
  have K := cgpmTLaws Z n
  have L := cgpmLaws n
  have hf := (holdsNothing_iff K hreg r).1 hr
  obtain ⟨h1, h2, -, -, -, h5, h6⟩ := K.observe c r o i g c' g' hreg hw ho
  obtain ⟨ob, c2, h7, -, -, h8, -⟩ := K.unobserve c' r g'' h1 h2
  have hE := K.inverse c r o i g c' g' g'' hreg hf hw ho
  rw [h7] at hE
  refine ⟨ob, c2, h7, fun v hv x hx => by rw [h8]; exact h5 v hv x (hf v) hx, fun v x hx => ?_,
    fun as g => (answers_E L as hE g).symm⟩
  rw [h8] at hx
  have hout : (cgpmI n).outputs c' = (cgpmI n).outputs c := by
    have := L.observe_attrs r o i c g (K.inv _ hreg)
    rw [ho] at this
    exact congrArg Prod.fst this
  have hv : v ∈ (cgpmI n).outputs c := by
    rw [← hout]
    by_contra hn
    rw [K.cell_out _ _ _ h1 hn] at hx
    cases hx
  refine ⟨hv, ?_⟩
  rcases hov : Dict.get? o v with _ | y
  · refine .inr ⟨rfl, ?_⟩
    by_contra hz
    rw [h6 v hz (hf v) hov] at hx
    cases hx
  · rw [h5 v hv y (hf v) hov] at hx
    exact .inl hx

/-- The observation of `row0` meets all hypotheses, for a flexible and for a finite mixture. -/
example (r : RowId) (g : Rng) : ∃ c' g', Tidy [5] 2 (.flexMix Concrete.view : Node (Node Prim)) ∧
    HoldsNothing (cgpmI 2) (.flexMix Concrete.view : Node (Node Prim)) r ∧
    WholeClusters [5] Concrete.row0 ∧ Fits 2 (.flexMix Concrete.view : Node (Node Prim)) Concrete.row0 ∧
    (cgpmI 2).observe r Concrete.row0 [] ((.flexMix Concrete.view : Node (Node Prim)), g) =
      (.ok (), (c', g')) := by
  obtain ⟨c', g', h⟩ := Concrete.view_observes r g
  exact ⟨c', g', Concrete.view_tidy, Concrete.view_empty r, Concrete.row0_whole, Concrete.view_fits, h⟩

example (r : RowId) (g : Rng) : ∃ c' g', Tidy [5] 2 (.finMix Concrete.finView : Node (Node Prim)) ∧
    HoldsNothing (cgpmI 2) (.finMix Concrete.finView : Node (Node Prim)) r ∧
    (cgpmI 2).observe r Concrete.row0 [] ((.finMix Concrete.finView : Node (Node Prim)), g) =
      (.ok (), (c', g')) := by
  obtain ⟨c', g', h⟩ := Concrete.finView_observes r g
  exact ⟨c', g', Concrete.finView_tidy, Concrete.finView_empty r, h⟩

/-! ## C22 Products of primitives -/

/-- `unobserve` on a product of primitives never raises; it hands back exactly the cells its
primitives hold for the row, and afterwards none of them holds the row. -/
theorem C22_unobserve {p : Product Prim} (h : Tidy Z 1 (.product p : Node Prim)) (r : RowId)
    (g : Rng) : ∃ ob p', (productI primI).unobserve r (p, g) = (.ok (ob, []), (p', g)) ∧
      (Dict.keys ob).Nodup ∧
      (∀ v x, Dict.get? ob v = some x ↔ ∃ q ∈ p.cgpms, v ∈ q.outputs ∧ Dict.get? q.data r = some x) ∧
      (∀ q ∈ p'.cgpms, Dict.get? q.data r = none) := by
  have hreg : (productTab primI (primTab Z)).Reg p := tidy_reg h
  have hnd := Product.validate_nodup hreg.2.1
  have K := productTLaws primLaws (primTLaws Z)
  obtain ⟨ob, p', h1, h2, h3, h4, h5, -⟩ := K.unobserve p r g hreg trivial
  have hcell : ∀ q ∈ p.cgpms, ∀ v ∈ q.outputs,
      (productTab primI (primTab Z)).cell p r v = Dict.get? q.data r := by
    intro q hq v hv
    refine (ProdTab.cell_of_mem (primTLaws Z) hreg.1 hnd hq hv r).trans ?_
    exact if_pos hv
  refine ⟨ob, p', h1, h3, fun v x => ?_, fun q hq => ?_⟩
  · rw [h4]
    constructor
    · intro hx
      have hv : v ∈ p.cgpms.flatMap primI.outputs := by
        by_contra hn
        have : (productTab primI (primTab Z)).cell p r v = none :=
          ProdTab.cell_of_not_mem (primTLaws Z) hreg.1 hn r
        rw [this] at hx
        cases hx
      obtain ⟨q, hq, hvq⟩ := List.mem_flatMap.1 hv
      exact ⟨q, hq, hvq, by rw [← hcell q hq v hvq]; exact hx⟩
    · rintro ⟨q, hq, hv, hd⟩
      rw [hcell q hq v hv, hd]
  · obtain ⟨o, ho⟩ := (h2.1 q hq).1.1.out
    have := ProdTab.cell_none_iff.1 (h5 o) q hq
    change (if o ∈ q.outputs then _ else _) = _ at this
    rwa [if_pos (by simp [ho])] at this

/-- After an accepted observation of a new row by a product of primitives, `unobserve` hands
back exactly the entries of the observation that are outputs of the product, and afterwards every
sequence of calls is answered as before the observation. -/
theorem C22_inverse {p p' : Product Prim} (h : Tidy Z 1 (.product p : Node Prim)) {r : RowId}
    (hr : ∀ q ∈ p.cgpms, Dict.get? q.data r = none) {o i : Dict Var Val} (hw : WholeClusters Z o)
    {g g' : Rng} (ho : (productI primI).observe r o i (p, g) = (.ok (), (p', g'))) (g'' : Rng) :
    ∃ ob p2, (productI primI).unobserve r (p', g'') = (.ok (ob, []), (p2, g'')) ∧
      (∀ v, Dict.get? ob v = if v ∈ (productI primI).outputs p then Dict.get? o v else none) ∧
      ∀ as g, answers (productI primI) as (p2, g) = answers (productI primI) as (p, g) := by
  have hreg : (productTab primI (primTab Z)).Reg p := tidy_reg h
  have hnd := Product.validate_nodup hreg.2.1
  have K := productTLaws primLaws (primTLaws Z)
  have L := productLaws primLaws
  have hf : (productTab primI (primTab Z)).Fresh p r := fun v => ProdTab.cell_none_iff.2 fun q hq => by
    change (if v ∈ q.outputs then _ else _) = _
    rw [hr q hq]
    split <;> rfl
  obtain ⟨h1, h2, -, -, -, h5, -⟩ := K.observe p r o i g p' g' hreg hw ho
  obtain ⟨ob, p2, h7, -, -, h8, -⟩ := K.unobserve p' r g'' h1 h2
  have hE := K.inverse p r o i g p' g' g'' hreg hf hw ho
  rw [h7] at hE
  refine ⟨ob, p2, h7, fun v => ?_, fun as g => (answers_E L as hE g).symm⟩
  rw [h8]
  split
  · next hv =>
    rcases hov : Dict.get? o v with _ | y
    · refine ProdTab.cell_none_iff.2 fun q hq => ?_
      obtain ⟨xs, e1, e2, e3⟩ := Product.observe_ok ho
      rw [← e2] at hq
      obtain ⟨x, hx, rfl⟩ := List.mem_map.1 hq
      have hx1 : x.1 ∈ p.cgpms := by rw [← e1]; exact List.mem_map.2 ⟨x, hx, rfl⟩
      obtain ⟨g1, g2, e4⟩ := e3 x hx
      obtain ⟨w, hw⟩ := (hreg.1 x.1 hx1).1.1.out
      have ha := observeOne_attrs primLaws r o i x.1 g1 ((primTLaws Z).inv _ (hreg.1 x.1 hx1))
      rw [e4] at ha
      have hout : x.2.2.outputs = x.1.outputs := congrArg Prod.fst ha
      change (if v ∈ x.2.2.outputs then _ else _) = _
      split
      · next hv =>
        rw [hout, hw, List.mem_singleton] at hv
        subst hv
        rw [observeOne_eq, if_pos (by
          change only x.1.outputs o = []
          rw [hw]; exact only_eq_nil (by simpa using hov))] at e4
        have : x.2.2 = x.1 := (Prod.ext_iff.1 (Prod.ext_iff.1 e4).2).1.symm
        rw [this, hr _ hx1]
      · rfl
    · exact h5 v hv y (hf v) hov
  · next hv =>
    have ha := L.observe_attrs r o i p g (K.inv _ hreg)
    rw [ho] at ha
    have hout : (productI primI).outputs p' = (productI primI).outputs p := congrArg Prod.fst ha
    exact K.cell_out _ _ _ h1 (by rw [hout]; exact hv)

example : Tidy [5] 1 (.product Concrete.block2 : Node Prim) ∧
    (∀ q ∈ Concrete.block2.cgpms, Dict.get? q.data (some 4) = none) ∧
    (cgpmI 1).outputs (.product Concrete.block2 : Node Prim) = [3, 1] :=
  ⟨Concrete.block2_tidy, Concrete.block2_all (by simp [Prim.data, Concrete.norm0])
    (by simp [Prim.data, Categorical.init]), rfl⟩

/-! ## C27 The books of a mixture agree -/

/-- In a flexible mixture the divider, `rowid_to_component` and the array's `rowid_to_index`
record the same cluster for each row; a cell of the mixture is the cell held by the component of
the row's cluster, and no other component holds anything for the row. -/
theorem C27_flexible {m : FlexMix (Cgpm n)} (h : Tidy Z (n + 1) (.flexMix m : Node (Cgpm n)))
    (r : RowId) :
    Dict.get? m.rowDivide.data r = Dict.get? m.rowidToComponent r ∧
    Dict.get? m.array.rowidToIndex r = Dict.get? m.rowidToComponent r ∧
    (∀ z, Dict.get? m.rowidToComponent r = some z → ∃ k : Int, z = .num (k : ℚ)) ∧
    (∀ g, heldCell (flexMixI (cgpmI n)) m g r m.indexer = Dict.get? m.rowidToComponent r) ∧
    (∀ g v, v ≠ m.indexer → heldCell (flexMixI (cgpmI n)) m g r v =
      (Dict.get? m.rowidToComponent r).bind fun z =>
        (Dict.get? m.array.cgpms z).bind fun c => heldCell (cgpmI n) c g r v) ∧
    (∀ k c, Dict.get? m.array.cgpms k = some c → Dict.get? m.rowidToComponent r ≠ some k →
      HoldsNothing (cgpmI n) c r) := by
  have hreg : (flexMixTab (cgpmI n) (cgpmSem n) Z (cgpmTab Z n)).Reg m := tidy_reg h
  have hm : MixReg _ _ _ _ _ _ _ m := hreg
  have K := cgpmTLaws Z n
  have L := cgpmLaws n
  have hget : ∀ k c, Dict.get? m.array.cgpms k = some c →
      (flexArr (cgpmSem n)).get m.array k = some c := by
    intro k c hk
    change some (m.array.comp (cgpmSem n) k) = _
    unfold FlexArray.comp
    rw [hk]
    rfl
  have hcell := fun g v => heldCell_eq (flexMixTLaws L K) hreg g r v
  refine ⟨hm.data r, hm.idx r, fun z hz => (hm.books r z hz).1, fun g => ?_, fun g v hv => ?_,
    fun k c hk hne => ?_⟩
  · rw [hcell]
    exact if_pos rfl
  · rw [hcell]
    refine (if_neg hv).trans ?_
    congr 1; funext z
    change some (m.array.comp (cgpmSem n) z) >>= _ = _
    unfold FlexArray.comp
    rcases hz : Dict.get? m.array.cgpms z with _ | c
    · obtain ⟨b1, b2, b3⟩ := flexMix_base L K hreg
      change (cgpmTab Z n).cell ((cgpmSem n).strip m.array.base) r v = _
      rw [← K.cell_E _ _ b2 b1]
      exact b3 r v
    · exact (heldCell_eq K (hm.comp z c (hget z c hz)).1 g r v).symm
  · exact (holdsNothing_iff K (hm.comp k c (hget k c hk)).1 r).2 (hm.fresh r k c (hget k c hk) hne)

/-- The same for a finite mixture, whose components are numbered from 0. -/
theorem C27_finite {m : FinMix (Cgpm n)} (h : Tidy Z (n + 1) (.finMix m : Node (Cgpm n)))
    (r : RowId) :
    Dict.get? m.rowDivide.data r = Dict.get? m.rowidToComponent r ∧
    Dict.get? m.array.rowidToIndex r = Dict.get? m.rowidToComponent r ∧
    (∀ z, Dict.get? m.rowidToComponent r = some z →
      ∃ k : Nat, z = .num (k : ℚ) ∧ k < m.array.cgpms.length) ∧
    (∀ g, heldCell (finMixI (cgpmI n)) m g r m.indexer = Dict.get? m.rowidToComponent r) ∧
    (∀ (k : Nat) c, m.array.cgpms[k]? = some c → Dict.get? m.rowidToComponent r = some (.num (k : ℚ)) →
      ∀ g v, v ≠ m.indexer → heldCell (finMixI (cgpmI n)) m g r v = heldCell (cgpmI n) c g r v) ∧
    (∀ (k : Nat) c, m.array.cgpms[k]? = some c → Dict.get? m.rowidToComponent r ≠ some (.num (k : ℚ)) →
      HoldsNothing (cgpmI n) c r) := by
  have hreg : (finMixTab (cgpmI n) (cgpmSem n) Z (cgpmTab Z n)).Reg m := tidy_reg h
  have hm : MixReg _ _ _ _ _ _ _ m := hreg
  have K := cgpmTLaws Z n
  have L := cgpmLaws n
  have hget : ∀ (k : Nat) c, m.array.cgpms[k]? = some c →
      finArr.get m.array (.num (k : ℚ)) = some c := by
    intro k c hk
    simp only [finArr, natIndex_nat, Option.bind_some, hk]
  have hcell := fun g v => heldCell_eq (finMixTLaws L K) hreg g r v
  refine ⟨hm.data r, hm.idx r, fun z hz => ?_, fun g => ?_, fun k c hk hz g v hv => ?_,
    fun k c hk hne => ?_⟩
  · obtain ⟨c, hc, -⟩ := (hm.books r z hz).2
    obtain ⟨j, hj1, hj2, -⟩ := FinArray.get_some hc
    exact ⟨j, natIndex_inj (natIndex_nat j) hj1, (List.getElem?_eq_some_iff.1 hj2).1⟩
  · rw [hcell]
    exact if_pos rfl
  · rw [hcell]
    refine (if_neg hv).trans ?_
    rw [hz]
    change (finArr.get m.array (.num (k : ℚ))).bind _ = _
    rw [hget k c hk]
    exact (heldCell_eq K (hm.comp _ c (hget k c hk)).1 g r v).symm
  · exact (holdsNothing_iff K (hm.comp _ c (hget k c hk)).1 r).2 (hm.fresh r _ c (hget k c hk) hne)

/-- Tidy mixtures holding rows exist: observe keeps a model tidy. -/
example (r : RowId) (g : Rng) : ∃ c', Tidy [5] 2 c' ∧ ¬ HoldsNothing (cgpmI 2) c' r := by
  obtain ⟨c', g', h⟩ := Concrete.view_observes r g
  refine ⟨c', .observe Concrete.view_tidy Concrete.row0_whole h, fun hn => ?_⟩
  obtain ⟨ob, c2, h1, h2, -⟩ := C28_inverse Concrete.view_tidy (Concrete.view_empty r)
    Concrete.row0_whole h g
  have h3 := hn g 3
  unfold heldCell at h3
  rw [h1] at h3
  dsimp only at h3
  rw [h2 3 (show 3 ∈ [5, 3, 1] by simp) (.num (1/2)) (by simp [Concrete.row0, Dict.get?_cons])] at h3
  cases h3

/-! ## C29 Chain rule of a flexible mixture -/

/-- The score of a flexible mixture is a number, and observing a new row together with its
cluster makes it grow by the log density the mixture gave to that row before. -/
theorem C29_chain_rule {m : FlexMix (Cgpm n)} (h : Tidy Z (n + 1) (.flexMix m : Node (Cgpm n)))
    {r r' : RowId} (hr : HoldsNothing (flexMixI (cgpmI n)) m r)
    (hr' : HoldsNothing (flexMixI (cgpmI n)) m r')
    {o i : Dict Var Val} (hw : WholeClusters Z o) (hn : (Dict.keys o).Nodup)
    (hz : ∀ v ∈ Z, v ∈ (flexMixI (cgpmI n)).outputs m → Dict.get? o v ≠ none)
    {g g' : Rng} {m' : FlexMix (Cgpm n)}
    (ho : (flexMixI (cgpmI n)).observe r o i (m, g) = (.ok (), (m', g'))) :
    ∃ y : ℝ, (flexMixI (cgpmI n)).logpdfScore m = .ok (.fin y) ∧
      ∀ x : ℝ, ((flexMixI (cgpmI n)).logpdf r' o [] [] (m, g)).1 = .ok (.fin x) →
        (flexMixI (cgpmI n)).logpdfScore m' = .ok (.fin (y + x)) := by
  have hreg : (flexMixTab (cgpmI n) (cgpmSem n) Z (cgpmTab Z n)).Reg m := tidy_reg h
  have hm : MixReg _ _ _ _ _ _ _ m := hreg
  have L := cgpmLaws n
  have K := flexMixTLaws L (cgpmTLaws Z n)
  have hf := (holdsNothing_iff K hreg r).1 hr
  have hf' := (holdsNothing_iff K hreg r').1 hr'
  obtain ⟨y, hy⟩ : Scored (flexMixI (cgpmI n)) m := 
    (RowMix.scored_iff (toM := FlexMix.toMetadata (cgpmI n)) (fromM := FlexMix.fromMetadata (cgpmI n))
      hm.inv.1).2 (FlexArray.scored hm.inv.2.1)
  refine ⟨y, hy, fun x hx => ?_⟩
  have hne : o ≠ [] := by
    rintro rfl
    obtain ⟨v, hv⟩ := hm.inv.1.1.out
    have hvi : m.indexer = v := by simp [RowMix.indexer, hv]
    refine hz m.indexer hm.x_mem ?_ rfl
    exact List.mem_append_left _ (by rw [hv, hvi]; simp)
  refine K.chain m r o i g m' g' x y hreg hf hw hn hz ho hy ?_
  rw [if_neg hne, ← hx]
  have := cgpmFree Z (n + 1) (.flexMix m) r r' o [] [] g hreg hf hf'
  exact this

/-! ## C69 Rows of which nothing is held are interchangeable -/

/-- `logpdf` gives the same answer for any two rows of which nothing is held, in particular for
`None` and any new row. -/
theorem C69_rows_interchangeable {c : Cgpm n} (h : Tidy Z n c) {r r' : RowId}
    (hr : HoldsNothing (cgpmI n) c r) (hr' : HoldsNothing (cgpmI n) c r')
    (t cs i : Dict Var Val) (g : Rng) :
    ((cgpmI n).logpdf r t cs i (c, g)).1 = ((cgpmI n).logpdf r' t cs i (c, g)).1 :=
  cgpmFree Z n c r r' t cs i g (tidy_reg h)
    ((holdsNothing_iff (cgpmTLaws Z n) (tidy_reg h) r).1 hr)
    ((holdsNothing_iff (cgpmTLaws Z n) (tidy_reg h) r').1 hr')

end Cgpm2.Props
