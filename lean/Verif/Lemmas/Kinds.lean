import Verif.Lemmas.Columns

/-!
# Moves of columns keep the types of the columns and make no new rows (helpers)
-/

namespace Cgpm2.Views
open Spec

/-- The class and the number of categories of a primitive. -/
def typeOf (p : Prim) : Prim.Kind × Nat := (p.kind, p.card)

/-- The columns of the view have the types `τ`. -/
def Typed (τ : Var → Prim.Kind × Nat) (v : View) : Prop :=
  ∃ m p, Flat v m p ∧ ∀ b ∈ p.cgpms, ∀ o, Prim.outputs b = [o] → typeOf b = τ o

section
variable {Z : List Var} {τ : Var → Prim.Kind × Nat} {R : RowId → Prop}

theorem Flat.unique {v : View} {m m' : FlexMix (Cgpm 1)} {p p' : Product (Cgpm 0)} (h : Flat v m p)
    (h' : Flat v m' p') : m' = m ∧ p' = p := by
  have e := h'.eq
  rw [h.eq] at e
  injection e with e
  subst e
  have e := h'.base
  rw [h.base] at e
  injection e with e
  exact ⟨rfl, e.symm⟩

theorem Typed.shape {v v' : View} (h : Typed τ v) (hr : (cgpmTab Z 2).Reg v')
    (hs : (cgpmSem 2).shape v' = (cgpmSem 2).shape v) : Typed τ v' := by
  obtain ⟨m, p, hf, ht⟩ := h
  obtain ⟨m', p', hf'⟩ := flat_of_reg hr (isView_of_shape hs hr hf.view)
  refine ⟨m', p', hf', fun b hb o ho => ?_⟩
  rw [hf.eq, hf'.eq] at hs
  have hs : Shape.mix m'.rowDivide.shape ((cgpmSem 1).shape m'.array.base) =
    Shape.mix m.rowDivide.shape ((cgpmSem 1).shape m.array.base) := hs
  injection hs with _ hs
  rw [hf.base, hf'.base] at hs
  obtain ⟨b', hb', he⟩ := shape_prims hs (q := b) (List.mem_flatMap.2 ⟨b, hb, List.mem_singleton.2 rfl⟩)
  unfold Prim.shape at he
  injection he with e1 e2 e3
  rw [← ht b' hb' o (e1.trans ho)]
  exact (Prod.ext e2 e3).symm

theorem add_flat {v v' : View} {new : Prim} (h : (cgpmTab Z 2).Reg v) (hv : IsView v)
    (hn : (primTab Z).Reg new) (hd : new.data = []) (hz : ∀ x ∈ new.outputs, x ∉ Z)
    (ha : addCgpm 2 v new = .ok v') : ∃ m p m' p', Flat v m p ∧ Flat v' m' p' ∧
      p'.cgpms = p.cgpms ++ [ofPrim 0 new] := by
  obtain ⟨a1, a2, -⟩ := addCgpm_view h hv hn hd hz ha
  obtain ⟨m', p', hf'⟩ := flat_of_reg a1 a2
  obtain ⟨m, p, hf⟩ := flat_of_reg h hv
  refine ⟨m, p, m', p', hf, hf', ?_⟩
  rw [hf.eq] at ha
  obtain ⟨m'', h1, h4⟩ := except_map_ok ha
  rw [hf'.eq] at h4
  injection h4 with h4
  subst h4
  obtain ⟨b, cs, h5, h2, -⟩ := flexMixAdd_of hf.out hn.1 h1
  rw [hf.base] at h2
  obtain ⟨q, h3, h6⟩ := except_map_ok (show (Walk.productAdd (cgpmI 0) p (ofPrim 0 new)).map _ =
    Except.ok b from h2)
  have hq := productAdd_of (up := ofPrim 0) h3
  have hb := hf'.base
  rw [h5] at hb
  have hb : b = _ := hb
  rw [← h6] at hb
  injection hb with hb
  rw [← hb, hq]

theorem Typed.add {bases : List Prim}
    (hb : ∀ p ∈ bases, (primTab Z).Reg p ∧ p.data = [] ∧ ∀ x ∈ p.outputs, x ∉ Z)
    (ht : ∀ p ∈ bases, ∀ o, p.outputs = [o] → typeOf p = τ o) {v v' : View}
    (h : (cgpmTab Z 2).Reg v) (hv : Typed τ v) (ha : bases.foldlM (addCgpm 2) v = .ok v') : Typed τ v' := by
  induction bases generalizing v with
  | nil => cases ha; exact hv
  | cons p bases ih =>
    rw [List.foldlM_cons] at ha
    rcases h1 : addCgpm 2 v p with e | v1
    · rw [h1] at ha; cases ha
    · rw [h1] at ha
      obtain ⟨p1, p2, p3⟩ := hb p (by simp)
      obtain ⟨m0, q0, hf0, ht0⟩ := hv
      obtain ⟨a1, -⟩ := addCgpm_view h hf0.view p1 p2 p3 h1
      refine ih (fun q hq => hb q (by simp [hq])) (fun q hq => ht q (by simp [hq])) a1 ?_ ha
      obtain ⟨m, q, m', q', hf, hf', hqq⟩ := add_flat h hf0.view p1 p2 p3 h1
      obtain ⟨rfl, rfl⟩ := hf0.unique hf
      refine ⟨m', q', hf', fun b hb' o ho => ?_⟩
      rw [hqq] at hb'
      rcases List.mem_append.1 hb' with hb' | hb'
      · exact ht0 b hb' o ho
      · have hb' : b = p := List.mem_singleton.1 hb'
        rw [hb'] at ho ⊢
        exact ht p (by simp) o ho

theorem Typed.remove {outs : List Var} {v v' : View} (hv : Typed τ v)
    (ho : outs.foldlM (removeCgpm 2) v = .ok v') : Typed τ v' := by
  induction outs generalizing v with
  | nil => cases ho; exact hv
  | cons o outs ih =>
    rw [List.foldlM_cons] at ho
    rcases h1 : removeCgpm 2 v o with e | v1
    · rw [h1] at ho; cases ho
    · rw [h1] at ho
      obtain ⟨m, p, hf, ht⟩ := hv
      obtain ⟨-, m', hf', -⟩ := remove_flat hf h1
      exact ih ⟨m', _, hf', fun b hb => ht b (List.mem_filter.1 hb).1⟩ ho

theorem Typed.share {D : RowId → Prop} {v q : View} (hv : Typed τ v) (hq : IsView q)
    (hk : Kept Z D v (share v q)) : Typed τ (Views.share v q) := by
  obtain ⟨m, p, hf, ht⟩ := hv
  obtain ⟨n, p', rfl, -, -⟩ := hq
  obtain ⟨m', q', hf'⟩ := flat_of_reg hk.reg hk.view
  have e := hf'.eq
  rw [hf.eq] at e
  have e : (.flexMix { m with
      rowDivide := n.rowDivide
      rowidToComponent := n.rowidToComponent
      array := { m.array with rowidToIndex := n.array.rowidToIndex } } : Node (Cgpm 1)) = .flexMix m' := e
  injection e with e
  subst e
  have e := hf'.base
  have e : m.array.base = _ := e
  rw [hf.base] at e
  injection e with e
  subst e
  exact ⟨_, _, hf', ht⟩

/-! ## The proposals -/

/-- The columns have the types `τ` and the rows are among `R`. -/
structure Fits (τ : Var → Prim.Kind × Nat) (R : RowId → Prop) (v : View) : Prop where
  typed : Typed τ v
  rows : ∀ Z r, (cgpmTab Z 2).present v r → R r

theorem Fits.of {v : View} (h : Typed τ v) (hr : ∀ r, (cgpmTab Z 2).present v r → R r) : Fits τ R v :=
  ⟨h, fun Z' r hp => hr r (by rwa [(cellsZ Z Z' 2).2])⟩

theorem Fits.removed {outs : List Var} {v v' : View} (hv : Fits τ R v) (hr : (cgpmTab Z 2).Reg v)
    (ho : outs.foldlM (removeCgpm 2) v = .ok v') (hl : 1 < ((cgpmI 2).outputs v').length) : Fits τ R v' := by
  obtain ⟨m, p, hf, -⟩ := hv.typed
  obtain ⟨-, m', p', -, -, -, h5⟩ := remove_views (Z := Z) hf ho
  exact .of (hv.typed.remove ho) fun r hp => hv.rows Z r (((h5 hr hl).2.2 r).1 hp)

variable {X : RowId → Var → Option Val} {outs : List Var} {bases : List Prim}
  {datasets : List (List (RowId × Dict Var Val))}

theorem proposalExisting_fits (h : Fed Z X outs bases datasets.flatten)
    (ht : ∀ p ∈ bases, ∀ o, p.outputs = [o] → typeOf p = τ o) (hX : ∀ r, Valued X outs r → R r)
    {v v' p : View} {g g' : Rng} (hr : (cgpmTab Z 2).Reg v) (hv : Fits τ R v)
    (ho : proposalExisting bases datasets (v, g) = (.ok p, (v', g'))) : Fits τ R p ∧ Fits τ R v' := by
  obtain ⟨m, q0, hf, -⟩ := hv.typed
  obtain ⟨k1, k2⟩ := proposalExisting_ok h hr hf.view ho
  unfold proposalExisting at ho
  dsimp only at ho
  rcases ha : bases.foldlM (addCgpm 2) v with e | q
  · rw [ha] at ho; cases ho
  · rw [ha] at ho
    dsimp only at ho
    rcases hob : observeAll datasets.flatten (q, g) with ⟨_ | ⟨⟩, q', g1⟩
    · rw [hob] at ho; cases ho
    · rw [hob] at ho
      cases ho
      obtain ⟨a1, a2, -⟩ := addCgpm_views h.reg hr hf.view ha
      obtain ⟨b1, b2, -⟩ := observeAll_ok h.whole a1 hob
      refine ⟨.of (Z := Z) ((hv.typed.add h.reg ht hr ha).shape b1 b2) fun r hp => ?_,
        .of (Z := Z) (hv.typed.share k1.view k2) fun r hp => ?_⟩
      · rcases (k1.rows r).1 hp with h1 | h1
        · exact hv.rows Z r h1
        · exact hX r h1
      · rcases (k2.rows r).2 hp with h1 | h1
        · exact hv.rows Z r h1
        · exact hX r h1

theorem proposeFrom_fits (h : Fed Z X outs bases datasets.flatten)
    (ht : ∀ p ∈ bases, ∀ o, p.outputs = [o] → typeOf p = τ o) (hX : ∀ r, Valued X outs r → R r)
    {cur : Nat} {views views' ps : List View} {i : Nat} {g g' : Rng}
    (hr : ∀ v ∈ views, (cgpmTab Z 2).Reg v ∧ Fits τ R v)
    (ho : proposeFrom bases datasets cur i views g = (.ok ps, (views', g'))) :
    (∀ v ∈ views', Fits τ R v) ∧ ∀ v ∈ ps, Fits τ R v := by
  induction views generalizing i g ps views' with
  | nil =>
    cases ho
    exact ⟨by simp, by simp⟩
  | cons v views ih =>
    unfold proposeFrom at ho
    rcases h1 : proposeOne bases datasets cur i (v, g) with ⟨_ | p0, v', g1⟩
    · rw [h1] at ho; cases ho
    rw [h1] at ho
    dsimp only at ho
    rcases h2 : proposeFrom bases datasets cur (i + 1) views g1 with ⟨_ | ps', vs', g2⟩
    · rw [h2] at ho; cases ho
    rw [h2] at ho
    cases ho
    obtain ⟨c1, c2⟩ := ih (fun u hu => hr u (by simp [hu])) h2
    obtain ⟨d1, d2⟩ := hr v (by simp)
    have key : Fits τ R p0 ∧ Fits τ R v' := by
      unfold proposeOne at h1
      split at h1
      · rw [Py.get_bind] at h1
        cases h1
        exact ⟨d2, d2⟩
      · exact proposalExisting_fits h ht hX d1 d2 h1
    exact ⟨fun u hu => (List.mem_cons.1 hu).elim (fun e => e ▸ key.2) (c1 u),
      fun u hu => (List.mem_cons.1 hu).elim (fun e => e ▸ key.1) (c2 u)⟩

theorem observeAll_shape {l : List (RowId × Dict Var Val)} {v v' : View} {g g' : Rng}
    (h : (cgpmSem 2).Inv v) (ho : observeAll l (v, g) = (.ok (), (v', g'))) :
    (cgpmSem 2).shape v' = (cgpmSem 2).shape v := by
  induction l generalizing v g with
  | nil => cases ho; rfl
  | cons e l ih =>
    obtain ⟨r0, d⟩ := e
    unfold observeAll at ho
    obtain ⟨⟨⟩, ⟨v1, g1⟩, h1, h2⟩ := run_bind ho
    have s1 : (cgpmSem 2).shape ((cgpmI 2).observe r0 d [] (v, g)).2.1 = (cgpmSem 2).shape v :=
      congrArg (fun a => a.2.2) ((cgpmLaws 2).observe_attrs r0 d [] v g h)
    have s2 := (cgpmLaws 2).inv_observe h r0 d [] g
    rw [h1] at s1 s2
    exact (ih s2 h2).trans s1

theorem proposalSingleton_typed (h : Fed Z X outs bases datasets.flatten)
    (ht : ∀ p ∈ bases, ∀ o, p.outputs = [o] → typeOf p = τ o) (hne : outs ≠ [])
    {p : View} {g g' : Rng} {z : Var} (hz : (cgpmI 2).outputs p = z :: outs) (hzo : z ∉ outs)
    (ho : proposalSingleton bases datasets g = (.ok p, g')) : Typed τ p := by
  obtain ⟨z', hz', hs⟩ := proposalSingleton_ok h hne ho
  rw [hz] at hz'
  cases hz'
  have hs := hs hzo
  obtain ⟨m', p', hf'⟩ := flat_of_reg hs.reg hs.view
  unfold proposalSingleton at ho
  rcases hr : randint g with ⟨_ | k, g1⟩
  · rw [hr] at ho; cases ho
  rw [hr] at ho
  dsimp only at ho
  rcases hm : (do
        let base ← Product.init primI bases
        FlexMix.init (.crp (Crp.init [(k : Int)] [] [] [])) (.product base : Node Prim) :
          Except Err (FlexMix (Node Prim))) with e | m
  · rw [hm] at ho; cases ho
  rw [hm] at ho
  dsimp only at ho
  rcases hob : observeAll datasets.flatten ((.flexMix m : Node (Node Prim)), g1) with ⟨_ | ⟨⟩, q', g2⟩
  · rw [hob] at ho; cases ho
  rw [hob] at ho
  cases ho
  rcases hv : Product.validate primI bases with e | u
  · unfold Product.init at hm
    rw [hv] at hm; cases hm
  have hm' : m = ⟨.crp (Crp.init [(k : Int)] [] [] []),
      FlexArray.init (.product ⟨bases⟩ : Node Prim) (k : Int), []⟩ := by
    unfold Product.init FlexMix.init at hm
    rw [hv] at hm
    cases hm
    rfl
  have hbne : bases ≠ [] := by
    rintro rfl
    exact hne (by rw [← h.base]; rfl)
  have hbase : (cgpmTab Z 1).Reg (.product ⟨bases⟩ : Node Prim) := ⟨fun p hp => (h.reg p hp).1, hv, hbne⟩
  have hgood : (Prim.crp (Crp.init [(k : Int)] [] [] [])).Good := by
    refine ⟨Crp.inv_init _ _ _ _, ?_⟩
    simp [LegalHypers, Crp.init]
  have hfresh : ∀ r, (cgpmTab Z 1).Fresh (.product ⟨bases⟩ : Node Prim) r := by
    intro r x
    refine ProdTab.cell_none_iff.2 fun p hp => ?_
    simp [cgpmTab, primTab, (h.reg p hp).2.1]
  have hscore : (cgpmI 1).logpdfScore (.product ⟨bases⟩ : Node Prim) = .ok (.fin 0) := by
    refine (cgpmFrame Z 1).zero _ hbase hfresh ?_
    refine (sumScore_fin_iff primI.logpdfScore bases).2 fun p hp => ?_
    exact ⟨_, Prim.logpdfScore_eq (h.reg p hp).1.1.1 (h.reg p hp).1.1.2⟩
  have hinv := flexMix_init_inv (Z := Z) hgood hbase hscore
  have hsh := observeAll_shape (v := (.flexMix m : Node (Node Prim))) (by rw [hm']; exact hinv) hob
  rw [hf'.eq, hm'] at hsh
  have hsh : Shape.mix m'.rowDivide.shape ((cgpmSem 1).shape m'.array.base) =
    Shape.mix _ ((cgpmSem 1).shape (.product ⟨bases⟩ : Node Prim)) := hsh
  injection hsh with _ hsh
  rw [hf'.base] at hsh
  refine ⟨m', p', hf', fun b hb o hbo => ?_⟩
  obtain ⟨b', hb', he⟩ := shape_prims (p := ⟨bases⟩) hsh (q := b)
    (List.mem_flatMap.2 ⟨b, hb, List.mem_singleton.2 rfl⟩)
  unfold Prim.shape at he
  injection he with e1 e2 e3
  rw [← ht b' hb' o (e1.trans hbo)]
  exact (Prod.ext e2 e3).symm

theorem singletons_fits (h : Fed Z X outs bases datasets.flatten)
    (ht : ∀ p ∈ bases, ∀ o, p.outputs = [o] → typeOf p = τ o) (hX : ∀ r, Valued X outs r → R r)
    (hne : outs ≠ []) {aux : Nat} {ps : List View} {g g' : Rng}
    (ho : singletons bases datasets aux g = (.ok ps, g')) :
    ∀ p ∈ ps, ((cgpmI 2).outputs p).Nodup → Fits τ R p := by
  induction aux generalizing ps g with
  | zero => cases ho; simp
  | succ aux ih =>
    obtain ⟨p, g1, h1, ho⟩ := run_bind ho
    obtain ⟨ps', g2, h2, ho⟩ := run_bind ho
    cases ho
    intro q hq hn
    rcases List.mem_cons.1 hq with rfl | hq
    · obtain ⟨z, hz, hs⟩ := proposalSingleton_ok h hne h1
      rw [hz, List.nodup_cons] at hn
      exact .of (Z := Z) (proposalSingleton_typed h ht hne hz hn.1 h1) fun r hp =>
        hX r (((hs hn.1).rows r).1 hp)
    · exact ih h2 q hq hn

/-! ## The CrossCat -/

/-- A view holds a row exactly when the row has a cluster. -/
theorem present_iff {v : View} (h : (cgpmTab Z 2).Reg v) (hv : IsView v) :
    ∃ z, z ∈ Z ∧ ((cgpmI 2).outputs v).head? = some z ∧
      ∀ r, (cgpmTab Z 2).present v r ↔ (cgpmTab Z 2).cell v r z ≠ none := by
  obtain ⟨m, p, hf⟩ := flat_of_reg h hv
  refine ⟨m.indexer, ?_, by rw [hf.outputs]; rfl, fun r => ?_⟩
  · rw [hf.eq] at h
    exact MixReg.x_mem h
  · rw [hf.eq]
    change Dict.get? m.rowidToComponent r ≠ none ↔ (if m.indexer = m.indexer then _ else _) ≠ none
    rw [if_pos rfl]

theorem flat_prims {v : View} {m : FlexMix (Cgpm 1)} {p : Product (Cgpm 0)} (hf : Flat v m p) {b : Cgpm 0}
    (hb : b ∈ p.cgpms) : (b : Prim) ∈ primsIn 2 v := by
  rw [hf.eq]
  refine List.mem_cons_of_mem _ (List.mem_append.2 (.inr ?_))
  rw [hf.base]
  exact List.mem_flatMap.2 ⟨b, hb, List.mem_singleton.2 rfl⟩

/-- The columns have the types `τ`. -/
def TypesOf (τ : Var → Prim.Kind × Nat) (x : Crosscat) : Prop :=
  ∀ o ∈ columns x, ∀ p, OfColumn x o p → typeOf p = τ o

theorem fits_of {x : Crosscat} (h : CC Z x) (ht : TypesOf τ x) (hR : RowsAmong R x) :
    ∀ v ∈ x.cgpms, Fits τ R v := by
  intro v hv
  obtain ⟨m, p, hf⟩ := flat_of_reg (h.viewReg hv) (h.views v hv)
  refine .of (Z := Z) ⟨m, p, hf, fun b hb o ho => ?_⟩ fun r hp => ?_
  · refine ht o (mem_columns.2 ⟨v, hv, ?_⟩) b ⟨List.mem_flatMap.2 ⟨v, hv, flat_prims hf hb⟩, ho⟩
    unfold viewColumns
    rw [hf.outputs]
    exact List.mem_flatMap.2 ⟨b, hb, by change o ∈ Prim.outputs b; simp [ho]⟩
  · obtain ⟨z, -, hz, hc⟩ := present_iff (h.viewReg hv) (h.views v hv)
    refine hR (fun _ => ⟨0, 0⟩) r z ?_
    rw [heldCell_eq (cgpmTLaws Z 3) h.reg, h.cell hv (List.mem_of_mem_head? hz)]
    exact (hc r).1 hp

theorem of_fits {x : Crosscat} (h : CC Z x) (hf : ∀ v ∈ x.cgpms, Fits τ R v) :
    TypesOf τ x ∧ RowsAmong R x := by
  refine ⟨fun o ho q hq => ?_, fun g r a ha => ?_⟩
  · obtain ⟨v, hv, hov⟩ := mem_columns.1 ho
    obtain ⟨m, p, hfl, ht⟩ := (hf v hv).typed
    unfold viewColumns at hov
    rw [hfl.outputs] at hov
    obtain ⟨b, hb, hob⟩ := List.mem_flatMap.1 hov
    have hb' : Prim.outputs b = [o] := by
      obtain ⟨a, ha⟩ := hfl.single b hb
      rw [ha, List.mem_singleton] at hob
      rw [hob]; exact ha
    obtain ⟨c, -, -, -, hc⟩ := column_prims h ho
    obtain ⟨e1, e2⟩ := hc q hq.1 hq.2
    obtain ⟨e3, e4⟩ := hc b (List.mem_flatMap.2 ⟨v, hv, flat_prims hfl hb⟩) hb'
    rw [← ht b hb o hb']
    exact Prod.ext (e1.trans e3.symm) (e2.trans e4.symm)
  · rw [heldCell_eq (cgpmTLaws Z 3) h.reg] at ha
    have hao : a ∈ (cgpmI 3).outputs (whole x) := by
      by_contra hn
      exact ha ((cgpmTLaws Z 3).cell_out _ _ _ h.reg hn)
    obtain ⟨v, hv, hav⟩ := List.mem_flatMap.1 hao
    rw [h.cell hv hav] at ha
    exact (hf v hv).rows Z r ((cgpmTLaws Z 2).present_cell _ _ _ (h.viewReg hv) ha)

theorem fits_valued {x : Crosscat} (h : CC Z x) (hf : ∀ v ∈ x.cgpms, Fits τ R v) {outs : List Var} (r : RowId)
    (hr : Valued (fun r a => (cgpmTab Z 3).cell (whole x) r a) outs r) : R r := by
  obtain ⟨o, -, ho⟩ := hr
  exact (of_fits h hf).2 (fun _ => ⟨0, 0⟩) r o (by rwa [heldCell_eq (cgpmTLaws Z 3) h.reg])

theorem basesOf_typed {x : Crosscat} (h : CC Z x) (ht : TypesOf τ x) {outs : List Var}
    (ho : ∀ o ∈ outs, o ∈ columns x) {bases : List Prim} {datasets : List (List (RowId × Dict Var Val))}
    (hb : basesOf x outs = .ok (bases, datasets)) : ∀ p ∈ bases, ∀ o, p.outputs = [o] → typeOf p = τ o := by
  unfold basesOf at hb
  rcases h1 : (outs.mapM fun output => cgpmBase (n := 3) (whole x) output) with e | bs
  · rw [h1] at hb; cases hb
  rw [h1] at hb
  rcases h2 : (outs.mapM fun output => Cpp.getDataset (n := 3) (whole x) output) with e | ds
  · change (do let datasets ← _; pure (bs, datasets) : Except Err _) = _ at hb
    rw [h2] at hb; cases hb
  change (do let datasets ← _; pure (bs, datasets) : Except Err _) = _ at hb
  rw [h2] at hb
  cases hb
  have hbases := mapM_ok_forall h1
  clear h1 h2
  induction hbases with
  | nil => simp
  | @cons o p outs bs h1 _ ih =>
    intro q hq a ha
    rcases List.mem_cons.1 hq with rfl | hq
    · obtain ⟨b, b1, b2, b3, -⟩ := cgpmBase_column h (ho o (by simp))
      rw [b2] at h1
      cases h1
      rw [b3] at ha
      cases ha
      exact ht _ (ho _ (by simp)) _ ⟨b1, b3⟩
    · exact ih (fun o ho' => ho o (by simp [ho'])) q hq a ha

theorem dropView_sub {x y : Crosscat} (hn : (x.cgpms.flatMap (cgpmI 2).outputs).Nodup) {u v : View}
    (h : dropView x u = .ok y) (hv : v ∈ y.cgpms) : v ∈ x.cgpms := by
  unfold dropView at h
  rw [productRemove_ok hn] at h
  obtain ⟨rfl, -⟩ := init_ok h
  exact (List.mem_filter.1 hv).1

theorem restored_fits {x y1 y2 : Crosscat} (h : CC Z x) (hf : ∀ v ∈ x.cgpms, Fits τ R v) {v0 v0' : View}
    (hv0 : v0 ∈ x.cgpms) (k1 : outs.foldlM (removeCgpm 2) v0 = .ok v0') (k2 : dropView x v0 = .ok y1)
    (k3 : restore y1 v0' = .ok y2) :
    (∀ v ∈ y2.cgpms, Fits τ R v) ∧ (y2.cgpms.flatMap (cgpmI 2).outputs).Nodup := by
  have hny1 := nodup_of_drop h.nodup hv0 (h.head_mem hv0) k2
  obtain ⟨p2, hny2⟩ := restore_ok k3 hny1
  refine ⟨fun v hv => ?_, hny2⟩
  rw [p2] at hv
  rcases List.mem_append.1 hv with hv | hv
  · exact hf v (dropView_sub h.nodup k2 hv)
  · split at hv
    · rename_i hl
      rw [List.mem_singleton.1 hv]
      exact (hf v0 hv0).removed (h.viewReg hv0) k1 hl
    · cases hv

theorem put_fits {y x' : Crosscat} {T : View} (hf : ∀ v ∈ y.cgpms, Fits τ R v)
    (hT : ((cgpmI 2).outputs T).Nodup → Fits τ R T) (h : putView y T = .ok x') :
    ∀ v ∈ x'.cgpms, Fits τ R v := by
  obtain ⟨p, hp⟩ := putView_ok h
  have hn := Product.validate_nodup hp
  rw [List.flatMap_append, List.flatMap_singleton] at hn
  intro v hv
  rw [p] at hv
  rcases List.mem_append.1 hv with hv | hv
  · exact hf v hv
  · rw [List.mem_singleton.1 hv]
    exact hT (List.nodup_append.1 hn).2.1

theorem transition_fits {x x' x'' : Crosscat} (h : CC Z x) (hf : ∀ v ∈ x.cgpms, Fits τ R v)
    (hne : outs ≠ []) (ho : ∀ o ∈ outs, o ∈ columns x) {aux : Nat} {g g' : Rng}
    (he : transitionViewAssignments outs aux (x, g) = (.ok x', (x'', g'))) :
    ∀ v ∈ x'.cgpms, Fits τ R v := by
  unfold transitionViewAssignments at he
  obtain ⟨ps, ⟨x1, g1⟩, e1, he⟩ := run_bind he
  obtain ⟨hs, hal, -⟩ := proposals_ok h hne ho e1
  have key : (∀ v ∈ x1.cgpms, Fits τ R v) ∧ ∀ p ∈ ps, ((cgpmI 2).outputs p).Nodup → Fits τ R p := by
    clear he
    unfold proposals at e1
    replace e1 := run_bind e1
    obtain ⟨ex, ⟨xa, ga⟩, e1, he⟩ := e1
    obtain ⟨si, ⟨xb, gb⟩, e2, he⟩ := run_bind he
    cases he
    unfold proposalsExisting at e1
    obtain ⟨⟨xc, gc⟩, s1, e3, e1⟩ := run_bind e1
    cases e3
    dsimp only at e1
    obtain ⟨cur, s1, e3, e1⟩ := run_bind e1
    obtain ⟨hcur, rfl⟩ := lift_ok e3
    obtain ⟨⟨bases, datasets⟩, s1, e3, e1⟩ := run_bind e1
    obtain ⟨hb, rfl⟩ := lift_ok e3
    unfold onViews at e1
    dsimp only at e1
    rcases hpf : proposeFrom bases datasets cur 0 x.cgpms g with ⟨r, views', g1⟩
    rw [hpf] at e1
    cases e1
    obtain ⟨c1, c2⟩ := proposeFrom_fits (basesOf_ok h ho hb) (basesOf_typed h (of_fits h hf).1 ho hb)
      (fun r hr => fits_valued h hf r hr) (fun v hv => ⟨h.viewReg hv, hf v hv⟩) hpf
    unfold proposalsSingleton at e2
    obtain ⟨⟨xc, gc⟩, s1, e3, e2⟩ := run_bind e2
    cases e3
    dsimp only at e2
    obtain ⟨⟨bases', datasets'⟩, s1, e3, e2⟩ := run_bind e2
    obtain ⟨hb', rfl⟩ := lift_ok e3
    obtain ⟨hsi, rfl⟩ := onSnd_ok e2
    have ho' : ∀ o ∈ outs, o ∈ columns _ := fun o h' => hal.columns ▸ ho o h'
    have d := singletons_fits (basesOf_ok hs.cc ho' hb') (basesOf_typed hs.cc (of_fits hs.cc c1).1 ho' hb')
      (fun r hr => fits_valued hs.cc c1 r hr) hne hsi
    exact ⟨c1, fun p hp hn => (List.mem_append.1 hp).elim (c2 p) fun hp => d p hp hn⟩
  obtain ⟨logps, s1, e2, he⟩ := run_bind he
  obtain ⟨-, rfl⟩ := lift_ok e2
  obtain ⟨⟨xa, ga⟩, s1, e2, he⟩ := run_bind he
  cases e2
  dsimp only at he
  obtain ⟨cur', s1, e2, he⟩ := run_bind he
  obtain ⟨hcur', rfl⟩ := lift_ok e2
  obtain ⟨sam, s1, -, he⟩ := run_bind he
  obtain ⟨hset, -⟩ := lift_ok he
  obtain ⟨v0, T, hv0, hT, hc⟩ := settle_ok hset
  have hT' := key.2 T (List.mem_of_getElem? hT)
  rcases hc with ⟨-, rfl⟩ | ⟨-, v0', y1, y2, k1, k2, k3, hc⟩
  · exact key.1
  obtain ⟨f1, f2⟩ := restored_fits hs.cc key.1 (List.mem_of_getElem? hv0) k1 k2 k3
  rcases hc with ⟨-, k4⟩ | ⟨-, u1, y3, -, k5, k6⟩
  · exact put_fits f1 hT' k4
  · exact put_fits (fun v hv => f1 v (dropView_sub f2 k5 hv)) hT' k6

theorem setExisting_fits {x x' x'' : Crosscat} (h : CC Z x) (hf : ∀ v ∈ x.cgpms, Fits τ R v) {o0 o1 : Var}
    (h0 : o0 ∈ columns x) (h1 : o1 ∈ columns x) {g g' : Rng}
    (he : setExisting o0 o1 (x, g) = (.ok x', (x'', g'))) : ∀ v ∈ x'.cgpms, Fits τ R v := by
  unfold setExisting at he
  obtain ⟨⟨xa, ga⟩, s1, e1, he⟩ := run_bind he
  cases e1
  dsimp only at he
  obtain ⟨i0, s1, e1, he⟩ := run_bind he
  obtain ⟨hi0, rfl⟩ := lift_ok e1
  obtain ⟨i1, s1, e1, he⟩ := run_bind he
  obtain ⟨hi1, rfl⟩ := lift_ok e1
  obtain ⟨v0, hv0, ho0⟩ := viewIndex_view h hi0 (by simp) (by simpa using h0)
  obtain ⟨v1, hv1, ho1⟩ := viewIndex_view h hi1 (by simp) (by simpa using h1)
  have m1 : v1 ∈ x.cgpms := List.mem_of_getElem? hv1
  by_cases hii : i0 = i1
  · rw [if_pos hii] at he
    cases he
    exact hf
  · rw [if_neg hii] at he
    obtain ⟨w0, s1, e1, he⟩ := run_bind he
    obtain ⟨hw0, rfl⟩ := lift_ok e1
    have := item_ok hw0
    rw [hv0] at this
    cases this
    obtain ⟨v0', s1, e1, he⟩ := run_bind he
    obtain ⟨hv0', rfl⟩ := lift_ok e1
    obtain ⟨w1, s1, e1, he⟩ := run_bind he
    obtain ⟨hw1, rfl⟩ := lift_ok e1
    have := item_ok hw1
    rw [hv1] at this
    cases this
    obtain ⟨⟨bases, datasets⟩, s1, e1, he⟩ := run_bind he
    obtain ⟨hb, rfl⟩ := lift_ok e1
    obtain ⟨T, ⟨xb, gb⟩, e1, he⟩ := run_bind he
    have hfed := basesOf_ok h (by simpa using h0) hb
    unfold onView at e1
    dsimp only at e1
    rw [hv1] at e1
    dsimp only at e1
    rcases hpe : proposalExisting bases datasets (v1, g) with ⟨_ | T', v1', g1⟩
    · rw [hpe] at e1; cases e1
    rw [hpe] at e1
    cases e1
    obtain ⟨hprop, hkept⟩ := proposalExisting_ok hfed (h.viewReg m1) (h.views v1 m1) hpe
    obtain ⟨hs, hal⟩ := kept_same h (h.valued (by simpa using h0)) (kept_set h.all hv1 hkept)
    obtain ⟨f1, f2⟩ := proposalExisting_fits hfed (basesOf_typed h (of_fits h hf).1 (by simpa using h0) hb)
      (fun r hr => fits_valued h hf r hr) (h.viewReg m1) (hf v1 m1) hpe
    have f3 : ∀ v ∈ x.cgpms.set i1 v1', Fits τ R v := fun v hv =>
      (List.mem_or_eq_of_mem_set hv).elim (hf v) fun e => e ▸ f2
    obtain ⟨⟨xc, gc⟩, s1, e1, he⟩ := run_bind he
    cases e1
    dsimp only at he
    obtain ⟨y1, s1, e1, he⟩ := run_bind he
    obtain ⟨hy1, rfl⟩ := lift_ok e1
    obtain ⟨y2, s1, e1, he⟩ := run_bind he
    obtain ⟨hy2, rfl⟩ := lift_ok e1
    obtain ⟨y3, s1, e1, he⟩ := run_bind he
    obtain ⟨hy3, rfl⟩ := lift_ok e1
    obtain ⟨hx', -⟩ := lift_ok he
    have m0' : v0 ∈ x.cgpms.set i1 v1' := List.mem_iff_getElem?.2 ⟨i0, by
      rw [List.getElem?_set_ne (Ne.symm hii)]; exact hv0⟩
    obtain ⟨q1, q2⟩ := restored_fits (x := ⟨x.cgpms.set i1 v1'⟩) hs.cc f3 m0' (foldlM_one hv0') hy1 hy2
    exact put_fits (fun v hv => q1 v (dropView_sub q2 hy3 hv)) (fun _ => f1) hx'

theorem setSingleton_fits {x x' x'' : Crosscat} (h : CC Z x) (hf : ∀ v ∈ x.cgpms, Fits τ R v) {o0 : Var}
    (h0 : o0 ∈ columns x) {g g' : Rng}
    (he : setSingleton o0 (x, g) = (.ok x', (x'', g'))) : ∀ v ∈ x'.cgpms, Fits τ R v := by
  unfold setSingleton at he
  obtain ⟨⟨xa, ga⟩, s1, e1, he⟩ := run_bind he
  cases e1
  dsimp only at he
  obtain ⟨i0, s1, e1, he⟩ := run_bind he
  obtain ⟨hi0, rfl⟩ := lift_ok e1
  obtain ⟨v0, hv0, ho0⟩ := viewIndex_view h hi0 (by simp) (by simpa using h0)
  obtain ⟨w0, s1, e1, he⟩ := run_bind he
  obtain ⟨hw0, rfl⟩ := lift_ok e1
  have := item_ok hw0
  rw [hv0] at this
  cases this
  obtain ⟨v0', s1, e1, he⟩ := run_bind he
  obtain ⟨hv0', rfl⟩ := lift_ok e1
  obtain ⟨⟨bases, datasets⟩, s1, e1, he⟩ := run_bind he
  obtain ⟨hb, rfl⟩ := lift_ok e1
  obtain ⟨T, ⟨xb, gb⟩, e1, he⟩ := run_bind he
  have hfed := basesOf_ok h (by simpa using h0) hb
  obtain ⟨hps, rfl⟩ := onSnd_ok e1
  obtain ⟨z, hz, hsing⟩ := proposalSingleton_ok hfed (by simp) hps
  obtain ⟨y1, s1, e1, he⟩ := run_bind he
  obtain ⟨hy1, rfl⟩ := lift_ok e1
  obtain ⟨y2, s1, e1, he⟩ := run_bind he
  obtain ⟨hy2, rfl⟩ := lift_ok e1
  obtain ⟨hx', -⟩ := lift_ok he
  obtain ⟨q1, q2⟩ := restored_fits h hf (List.mem_of_getElem? hv0) (foldlM_one hv0') hy1 hy2
  refine put_fits q1 (fun hn => ?_) hx'
  rw [hz, List.nodup_cons] at hn
  exact .of (Z := Z) (proposalSingleton_typed hfed (basesOf_typed h (of_fits h hf).1 (by simpa using h0) hb)
    (by simp) hz hn.1 hps) fun r hp => fits_valued h hf r (((hsing hn.1).rows r).1 hp)

end

end Cgpm2.Views
