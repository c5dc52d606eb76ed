import Verif.Lemmas.ViewOne

/-!
# Moving columns between the views of a CrossCat (helpers)
-/

namespace Cgpm2.Views
open Spec

/-! ## CrossCats that keep a table -/

/-- A CrossCat that keeps a table; its columns are not cluster variables. -/
structure CC (Z : List Var) (x : Crosscat) : Prop where
  reg : (cgpmTab Z 3).Reg (whole x)
  views : IsCrosscat x
  plain : ∀ v ∈ columns x, v ∉ Z

section
variable {Z : List Var} {x : Crosscat}

theorem CC.viewReg (h : CC Z x) {v : View} (hv : v ∈ x.cgpms) : (cgpmTab Z 2).Reg v := h.reg.1 v hv

theorem CC.nodup (h : CC Z x) : (x.cgpms.flatMap (cgpmI 2).outputs).Nodup :=
  Product.validate_nodup h.reg.2.1

theorem CC.cell (h : CC Z x) {v : View} (hv : v ∈ x.cgpms) {a : Var} (ha : a ∈ (cgpmI 2).outputs v)
    (r : RowId) : (cgpmTab Z 3).cell (whole x) r a = (cgpmTab Z 2).cell v r a :=
  ProdTab.cell_of_mem (cgpmTLaws Z 2) h.reg.1 h.nodup hv ha r

theorem mem_columns {o : Var} : o ∈ columns x ↔ ∃ v ∈ x.cgpms, o ∈ viewColumns v := List.mem_flatMap

theorem columns_sub {o : Var} {v : View} (h : o ∈ viewColumns v) : o ∈ (cgpmI 2).outputs v :=
  List.mem_of_mem_tail h

theorem CC.mem_outputs (_ : CC Z x) {o : Var} (ho : o ∈ columns x) :
    o ∈ (cgpmI 3).outputs (whole x) := by
  obtain ⟨v, hv, ho⟩ := mem_columns.1 ho
  exact List.mem_flatMap.2 ⟨v, hv, columns_sub ho⟩

/-- The cluster variable of a view. -/
theorem CC.head (h : CC Z x) {v : View} (hv : v ∈ x.cgpms) :
    ∃ z ∈ Z, (cgpmI 2).outputs v = z :: viewColumns v := by
  obtain ⟨m, p, hf⟩ := flat_of_reg (h.viewReg hv) (h.views v hv)
  refine ⟨m.indexer, ?_, ?_⟩
  · have := h.viewReg hv
    rw [hf.eq] at this
    exact MixReg.x_mem this
  · unfold viewColumns
    rw [hf.outputs]
    rfl

theorem CC.mem_view (h : CC Z x) {v : View} (hv : v ∈ x.cgpms) {o : Var} (ho : o ∈ columns x)
    (hov : o ∈ (cgpmI 2).outputs v) : o ∈ viewColumns v := by
  obtain ⟨z, hz, he⟩ := h.head hv
  rw [he] at hov
  rcases List.mem_cons.1 hov with rfl | hov
  · exact absurd hz (h.plain _ ho)
  · exact hov

end

/-! ## Bases and data sets -/

theorem mapM_ok_forall {α β : Type} {f : α → Except Err β} {l : List α} {l' : List β}
    (h : l.mapM f = .ok l') : List.Forall₂ (fun a b => f a = .ok b) l l' := by
  induction l generalizing l' with
  | nil => cases h; exact .nil
  | cons a l ih =>
    rw [List.mapM_cons] at h
    rcases ha : f a with e | b
    · rw [ha] at h; cases h
    · rw [ha] at h
      rcases hl : l.mapM f with e | bs
      · rw [hl] at h; cases h
      · rw [hl] at h; cases h
        exact .cons ha (ih hl)

theorem cgpmBase_ok {Z : List Var} {x : Crosscat} (h : CC Z x) {o : Var} (ho : o ∈ columns x) {p : Prim}
    (hb : cgpmBase (n := 3) (whole x) o = .ok p) :
    p.outputs = [o] ∧ (primTab Z).Reg p ∧ p.data = [] := by
  obtain ⟨refs, h1, h2⟩ := (cgpm_walk Z 3 (whole x) h.reg).walk o (h.mem_outputs ho)
  unfold cgpmBase at hb
  rw [h1] at hb
  have hb : (match refs.objs.filter fun p => p.data.isEmpty with
    | [] => throw .indexError
    | p :: _ => pure p : Except Err Prim) = .ok p := hb
  rcases hf : refs.objs.filter fun p => p.data.isEmpty with _ | ⟨q, l⟩
  · rw [hf] at hb; cases hb
  · rw [hf] at hb
    cases hb
    have hq : p ∈ refs.objs.filter fun p => p.data.isEmpty := by rw [hf]; simp
    rw [List.mem_filter, h2.objs] at hq
    obtain ⟨hq1, hq2⟩ := hq
    unfold colOf at hq1
    rw [List.mem_filter] at hq1
    have hd : p.data = [] := by simpa using hq2
    refine ⟨by simpa using hq1.2, prim_reg_of (reg_prims 3 _ h.reg p hq1.1) hd, hd⟩

theorem fed_aux {Z : List Var} {x : Crosscat} (h : CC Z x) {outs : List Var}
    {datasets : List (List (RowId × Dict Var Val))} (ho : ∀ o ∈ outs, o ∈ columns x)
    (hd : List.Forall₂ (fun o l => Cpp.getDataset (n := 3) (whole x) o = .ok l) outs datasets) :
    ∀ r d, (r, d) ∈ datasets.flatten ↔
      ∃ o ∈ outs, ∃ a, (cgpmTab Z 3).cell (whole x) r o = some a ∧ d = [(o, a)] := by
  induction hd with
  | nil => simp
  | @cons o l outs ds h1 _ ih =>
    intro r d
    obtain ⟨l', e1, -, e3⟩ := getDataset_eq h.reg (h.mem_outputs (ho o (by simp)))
    rw [h1] at e1
    cases e1
    rw [List.flatten_cons, List.mem_append, e3, ih fun o ho' => ho o (by simp [ho'])]
    simp

theorem basesOf_ok {Z : List Var} {x : Crosscat} (h : CC Z x) {outs : List Var}
    (ho : ∀ o ∈ outs, o ∈ columns x) {bases : List Prim}
    {datasets : List (List (RowId × Dict Var Val))}
    (hb : basesOf x outs = .ok (bases, datasets)) :
    Fed Z (fun r o => (cgpmTab Z 3).cell (whole x) r o) outs bases datasets.flatten := by
  unfold basesOf at hb
  rcases h1 : (outs.mapM fun output => cgpmBase (n := 3) (whole x) output) with e | bs
  · rw [h1] at hb; cases hb
  rw [h1] at hb
  rcases h2 : (outs.mapM fun output => Cpp.getDataset (n := 3) (whole x) output) with e | ds
  · change (do let datasets ← _; pure (bs, datasets) : Except Err _) = _ at hb
    rw [h2] at hb; cases hb
  change (do let datasets ← _; pure (bs, datasets) : Except Err _) = _ at hb
  rw [h2] at hb
  cases hb
  have hmem := fed_aux h ho (mapM_ok_forall h2)
  have hbases := mapM_ok_forall h1
  refine ⟨?_, ?_, fun o ho' => h.plain o (ho o ho'), fun r o ho' a => ?_, fun e he y hy => ?_,
    fun e he => ?_⟩
  · clear h1 h2 hmem
    induction hbases with
    | nil => rfl
    | @cons o p outs bs h1 _ ih =>
      rw [List.flatMap_cons, (cgpmBase_ok h (ho o (by simp)) h1).1,
        ih fun o ho' => ho o (by simp [ho'])]
      rfl
  · clear h1 h2 hmem
    induction hbases with
    | nil => simp
    | @cons o p outs bs h1 _ ih =>
      intro q hq
      rcases List.mem_cons.1 hq with rfl | hq
      · obtain ⟨a1, a2, a3⟩ := cgpmBase_ok h (ho o (by simp)) h1
        refine ⟨a2, a3, fun y hy => ?_⟩
        rw [a1, List.mem_singleton] at hy
        rw [hy]; exact h.plain o (ho o (by simp))
      · exact ih (fun o ho' => ho o (by simp [ho'])) q hq
  · constructor
    · intro ha
      exact ⟨(r, [(o, a)]), (hmem r _).2 ⟨o, ho', a, ha, rfl⟩, rfl, by simp [Dict.get?]⟩
    · rintro ⟨⟨r', d⟩, he, hr, hg⟩
      dsimp only at hr hg
      subst hr
      obtain ⟨o', -, a', h3, rfl⟩ := (hmem r' d).1 he
      rw [Dict.get?_cons] at hg
      split at hg
      · rename_i e
        subst e
        cases hg
        exact h3
      · cases hg
  · obtain ⟨r, d⟩ := e
    obtain ⟨o', ho', a', -, rfl⟩ := (hmem r d).1 he
    rw [Dict.get?_cons, if_neg (fun e : o' = y => hy (e ▸ ho'))]
    rfl
  · obtain ⟨r, d⟩ := e
    obtain ⟨o', ho', a', -, rfl⟩ := (hmem r d).1 he
    exact ⟨o', ho', by simp [Dict.get?]⟩

/-! ## The view of a column -/

theorem viewIndex_ok {x : Crosscat} {outs : List Var} {i : Nat} (hi : viewIndex x outs = .ok i)
    {o : Var} (ho : o ∈ outs) {j : Nat} {v : View} (hj : x.cgpms[j]? = some v)
    (hv : o ∈ (cgpmI 2).outputs v) : j = i := by
  have hmem : j ∈ outs.flatMap fun output =>
      (x.cgpms.zipIdx.filter fun vi => decide (output ∈ (cgpmI 2).outputs vi.1)).map Prod.snd := by
    refine List.mem_flatMap.2 ⟨o, ho, List.mem_map.2 ⟨(v, j), List.mem_filter.2 ⟨?_, by simpa using hv⟩, rfl⟩⟩
    rw [List.mem_zipIdx_iff_getElem?]
    exact hj
  unfold viewIndex at hi
  dsimp only at hi
  revert hi hmem
  generalize (outs.flatMap fun output =>
      (x.cgpms.zipIdx.filter fun vi => decide (output ∈ (cgpmI 2).outputs vi.1)).map Prod.snd) = l
  intro hi hmem
  rcases l with _ | ⟨k, l⟩
  · cases hmem
  · dsimp only at hi
    split at hi
    · cases hi
    · rename_i hn
      cases hi
      rw [not_not] at hn
      rcases List.mem_cons.1 hmem with h | h
      · exact h
      · exact hn j h

theorem viewIndex_view {Z : List Var} {x : Crosscat} (_ : CC Z x) {outs : List Var} {i : Nat}
    (hi : viewIndex x outs = .ok i) (hne : outs ≠ []) (ho : ∀ o ∈ outs, o ∈ columns x) :
    ∃ v, x.cgpms[i]? = some v ∧ ∀ o ∈ outs, o ∈ viewColumns v := by
  have key : ∀ o ∈ outs, ∃ v, x.cgpms[i]? = some v ∧ o ∈ viewColumns v := by
    intro o ho'
    obtain ⟨v, hv, hov⟩ := mem_columns.1 (ho o ho')
    obtain ⟨j, hj⟩ := List.mem_iff_getElem?.1 hv
    have := viewIndex_ok hi ho' hj (columns_sub hov)
    subst this
    exact ⟨v, hj, hov⟩
  obtain ⟨o, ho'⟩ := List.exists_mem_of_ne_nil _ hne
  obtain ⟨v, hv, -⟩ := key o ho'
  refine ⟨v, hv, fun o ho => ?_⟩
  obtain ⟨v', hv', h⟩ := key o ho
  rw [hv] at hv'
  cases hv'
  exact h

/-! ## Proposals for the existing views -/

theorem proposeFrom_ok {Z : List Var} {X : RowId → Var → Option Val} {outs : List Var}
    {bases : List Prim} {datasets : List (List (RowId × Dict Var Val))}
    (h : Fed Z X outs bases datasets.flatten) {cur : Nat} {views views' ps : List View} {i : Nat}
    {g g' : Rng} (hr : ∀ v ∈ views, (cgpmTab Z 2).Reg v ∧ IsView v)
    (ho : proposeFrom bases datasets cur i views g = (.ok ps, (views', g'))) :
    List.Forall₂ (Kept Z (Valued X outs)) views views' ∧ ps.length = views.length ∧
      ∀ j p, ps[j]? = some p → i + j ≠ cur → ∃ v, views[j]? = some v ∧ Proposal Z X outs v p := by
  induction views generalizing i g ps views' with
  | nil =>
    cases ho
    exact ⟨.nil, rfl, fun j p hp => by simp at hp⟩
  | cons v views ih =>
    unfold proposeFrom at ho
    rcases h1 : proposeOne bases datasets cur i (v, g) with ⟨_ | p0, v', g1⟩
    · rw [h1] at ho; cases ho
    rw [h1] at ho
    dsimp only at ho
    rcases h2 : proposeFrom bases datasets cur (i + 1) views g1 with ⟨_ | ps0, vs', g2⟩
    · rw [h2] at ho; cases ho
    rw [h2] at ho
    cases ho
    obtain ⟨a1, a2, a3⟩ := ih (fun v hv => hr v (by simp [hv])) h2
    obtain ⟨r1, r2⟩ := hr v (by simp)
    have hone : Kept Z (Valued X outs) v v' ∧ (i ≠ cur → Proposal Z X outs v p0) := by
      unfold proposeOne at h1
      split at h1
      · rename_i hs
        cases h1
        refine ⟨Kept.refl r1 r2, fun hi => ?_⟩
        simp [sameInt] at hs
        exact absurd hs.1 hi
      · obtain ⟨b1, b2⟩ := proposalExisting_ok h r1 r2 h1
        exact ⟨b2, fun _ => b1⟩
    refine ⟨.cons hone.1 a1, by simp [a2], fun j p hp hj => ?_⟩
    rcases j with _ | j
    · simp only [List.getElem?_cons_zero, Option.some.injEq] at hp
      subst hp
      exact ⟨v, rfl, hone.2 (by simpa using hj)⟩
    · simp only [List.getElem?_cons_succ] at hp ⊢
      exact a3 j p hp (by omega)

/-! ## Replacing views -/

/-- The views have the rows `R`. -/
def Rows (Z : List Var) (x : Crosscat) (R : RowId → Prop) : Prop :=
  ∀ v ∈ x.cgpms, ∀ r, (cgpmTab Z 2).present v r ↔ R r

/-- The view agrees with the cells `X` has the rows given by `A`, and no cluster
variables but those of `N` and `O`. -/
structure OkView (Z N O : List Var) (A : (RowId → Prop) → Prop) (X : RowId → Var → Option Val)
    (v : View) : Prop where
  reg : (cgpmTab Z 2).Reg v
  view : IsView v
  cell : ∀ r, ∀ a ∈ (cgpmI 2).outputs v, a ∉ Z → (cgpmTab Z 2).cell v r a = X r a
  kept : ∀ r, ∀ a ∈ (cgpmI 2).outputs v, a ∉ N → ∀ k, X r a = some k →
    (cgpmTab Z 2).cell v r a = some k
  rows : ∀ R, A R → ∀ r, (cgpmTab Z 2).present v r ↔ R r
  outs : ∀ a ∈ (cgpmI 2).outputs v, a ∉ N → a ∈ O

/-- `x'` has the columns of `x` and their cells; its clusters are those of `x` as far as they go,
except for the cluster variables `N`; its views have the rows given by `A`. -/
structure Same (Z' N : List Var) (A : (RowId → Prop) → Prop) (x x' : Crosscat) : Prop where
  cc : CC Z' x'
  cell : ∀ r, ∀ a ∈ columns x', (cgpmTab Z' 3).cell (whole x') r a = (cgpmTab Z' 3).cell (whole x) r a
  kept : ∀ r, ∀ a ∈ (cgpmI 3).outputs (whole x'), a ∉ N → ∀ k,
    (cgpmTab Z' 3).cell (whole x) r a = some k → (cgpmTab Z' 3).cell (whole x') r a = some k
  rows : ∀ R, A R → Rows Z' x' R
  outs : ∀ a ∈ (cgpmI 3).outputs (whole x'), a ∉ N → a ∈ (cgpmI 3).outputs (whole x)

/-- A CrossCat made of views that agree with `x`. -/
theorem assemble {Z' N : List Var} {A : (RowId → Prop) → Prop} {x x' : Crosscat}
    (hv : Product.validate (cgpmI 2) x'.cgpms = .ok ()) (hne : x'.cgpms ≠ [])
    (hp : ∀ a ∈ columns x', a ∉ Z')
    (hm : ∀ v ∈ x'.cgpms, OkView Z' N ((cgpmI 3).outputs (whole x)) A
      (fun r a => (cgpmTab Z' 3).cell (whole x) r a) v) :
    Same Z' N A x x' := by
  have hcc : CC Z' x' := ⟨⟨fun v hv => (hm v hv).reg, hv, hne⟩, fun v hv => (hm v hv).view, hp⟩
  refine ⟨hcc, fun r a ha => ?_, fun r a ha hN k hk => ?_,
    fun R hR v hv => (hm v hv).rows R hR, fun a ha hN => by
    obtain ⟨v, hv, hav⟩ := List.mem_flatMap.1 (show a ∈ x'.cgpms.flatMap (cgpmI 2).outputs from ha)
    exact (hm v hv).outs a hav hN⟩
  · obtain ⟨v, hv, hav⟩ := mem_columns.1 ha
    rw [hcc.cell hv (columns_sub hav)]
    exact (hm v hv).cell r a (columns_sub hav) (hp a ha)
  · obtain ⟨v, hv, hav⟩ := List.mem_flatMap.1 (show a ∈ x'.cgpms.flatMap (cgpmI 2).outputs from ha)
    rw [hcc.cell hv hav]
    exact (hm v hv).kept r a hav hN k hk

theorem okView_of_cc {Z : List Var} {x : Crosscat} (h : CC Z x) {v : View} (hv : v ∈ x.cgpms) :
    OkView Z [] ((cgpmI 3).outputs (whole x)) (Rows Z x)
      (fun r a => (cgpmTab Z 3).cell (whole x) r a) v :=
  ⟨h.viewReg hv, h.views v hv, fun r _ ha _ => (h.cell hv ha r).symm,
    fun r _ ha _ k hk => by rw [← h.cell hv ha r]; exact hk, fun _ hR => hR v hv,
    fun _ ha _ => List.mem_flatMap.2 ⟨v, hv, ha⟩⟩

theorem OkView.kept_view {Z N O : List Var} {A : (RowId → Prop) → Prop} {X : RowId → Var → Option Val}
    {D : RowId → Prop} {v v' : View} (h : OkView Z N O A X v) (hk : Kept Z D v v')
    (hD : ∀ R, A R → ∀ r, D r → R r) : OkView Z N O A X v' :=
  ⟨hk.reg, hk.view, fun r a ha hz => by
    rw [hk.outs] at ha
    rw [hk.cell r a hz]; exact h.cell r a ha hz, fun r a ha hN k hX => by
    rw [hk.outs] at ha
    exact hk.kept r a k (h.kept r a ha hN k hX), fun R hR r =>
    ⟨fun h' => ((hk.rows r).2 h').elim (h.rows R hR r).1 (hD R hR r),
      fun h' => (hk.rows r).1 ((h.rows R hR r).2 h')⟩, fun a ha hN => by
    rw [hk.outs] at ha
    exact h.outs a ha hN⟩

/-- The outputs of the views are the same. -/
def Alike (x y : Crosscat) : Prop :=
  x.cgpms.map (cgpmI 2).outputs = y.cgpms.map (cgpmI 2).outputs

theorem Alike.cols {x y : Crosscat} (h : Alike x y) :
    x.cgpms.map viewColumns = y.cgpms.map viewColumns := by
  have := congrArg (List.map List.tail) h
  rw [List.map_map, List.map_map] at this
  exact this

theorem Alike.columns {x y : Crosscat} (h : Alike x y) : columns x = columns y := by
  unfold Spec.columns
  rw [List.flatMap_def, List.flatMap_def, h.cols]

theorem kept_outs {Z : List Var} {D : RowId → Prop} {l l' : List View}
    (h : List.Forall₂ (Kept Z D) l l') :
    l.map (cgpmI 2).outputs = l'.map (cgpmI 2).outputs := by
  induction h with
  | nil => rfl
  | cons h _ ih => rw [List.map_cons, List.map_cons, ih, h.outs]

theorem flatMap_of_map {S : Type} {f : S → List Var} {l l' : List S} (h : l.map f = l'.map f) :
    l.flatMap f = l'.flatMap f := by
  rw [List.flatMap_def, List.flatMap_def, h]

theorem kept_mem {Z : List Var} {D : RowId → Prop} {l l' : List View}
    (h : List.Forall₂ (Kept Z D) l l') {v' : View} (hv : v' ∈ l') : ∃ v ∈ l, Kept Z D v v' := by
  induction h with
  | nil => cases hv
  | @cons a b l l' h _ ih =>
    rcases List.mem_cons.1 hv with rfl | hv
    · exact ⟨a, by simp, h⟩
    · obtain ⟨v, h1, h2⟩ := ih hv
      exact ⟨v, by simp [h1], h2⟩

/-- Views that were kept make up a CrossCat with the same table. -/
theorem kept_same {Z : List Var} {x : Crosscat} (h : CC Z x) {D : RowId → Prop}
    (hD : ∀ R, Rows Z x R → ∀ r, D r → R r) {l : List View}
    (hk : List.Forall₂ (Kept Z D) x.cgpms l) : Same Z [] (Rows Z x) x ⟨l⟩ ∧ Alike x ⟨l⟩ := by
  have hout := kept_outs hk
  have hal : Alike x ⟨l⟩ := hout
  refine ⟨assemble ?_ ?_ ?_ ?_, hal⟩
  · refine validate_of_nodup (fun c hc => ?_) ?_
    · obtain ⟨v, -, hv⟩ := kept_mem hk hc
      exact (cgpmTLaws Z 2).inputs _ hv.reg
    · rw [← flatMap_of_map hout]; exact h.nodup
  · rintro rfl
    have := hk.length_eq
    rw [List.length_nil, List.length_eq_zero_iff] at this
    exact h.reg.2.2 this
  · rw [← hal.columns]; exact h.plain
  · intro v' hv'
    obtain ⟨v, hv, hkv⟩ := kept_mem hk hv'
    exact (okView_of_cc h hv).kept_view hkv hD

theorem CC.valued {Z : List Var} {x : Crosscat} (h : CC Z x) {outs : List Var}
    (ho : ∀ o ∈ outs, o ∈ columns x) (R : RowId → Prop) (hR : Rows Z x R) (r : RowId)
    (hr : Valued (fun r a => (cgpmTab Z 3).cell (whole x) r a) outs r) : R r := by
  obtain ⟨o, ho', hc⟩ := hr
  obtain ⟨v, hv, hov⟩ := mem_columns.1 (ho o ho')
  dsimp only at hc
  rw [h.cell hv (columns_sub hov)] at hc
  exact (hR v hv r).1 ((cgpmTLaws Z 2).present_cell _ _ _ (h.viewReg hv) hc)

/-! ## The moves -/

/-- How a move of the columns `outs` changes the partition of the columns: they leave a block and
join the block of `C1`, or make up a new one if `C1` is empty; an empty block is dropped. -/
def MovedCols (C1 P P' : List (List Var)) (outs : List Var) : Prop :=
  ∃ c0 w, P.Perm (c0 :: (C1 ++ w)) ∧ (∀ o ∈ outs, o ∈ c0) ∧
    P'.Perm ((C1.flatten ++ outs) :: ((if (c0.filter fun v => decide (v ∉ outs)) = [] then []
      else [c0.filter fun v => decide (v ∉ outs)]) ++ w))

theorem filter_perm {c0 outs : List Var} (h0 : c0.Nodup) (hn : outs.Nodup) (hs : ∀ o ∈ outs, o ∈ c0) :
    (outs ++ c0.filter fun v => decide (v ∉ outs)).Perm c0 := by
  rw [List.perm_ext_iff_of_nodup _ h0]
  · intro a
    by_cases ha : a ∈ outs <;> simp [ha]
    exact hs a ha
  · rw [List.nodup_append]
    refine ⟨hn, h0.filter _, fun a ha b hb e => ?_⟩
    subst e
    simp at hb
    exact hb.2 ha

theorem MovedCols.perm {C1 P P' : List (List Var)} {outs : List Var} (h : MovedCols C1 P P' outs)
    (h0 : P.flatten.Nodup) (hn : outs.Nodup) : P'.flatten.Perm P.flatten := by
  obtain ⟨c0, w, h1, h2, h3⟩ := h
  have e1 := h1.flatten
  have e2 := h3.flatten
  have hc0 : c0.Nodup := by
    have := e1.nodup_iff.1 h0
    rw [List.flatten_cons, List.nodup_append] at this
    exact this.1
  have e3 : (if (c0.filter fun v => decide (v ∉ outs)) = [] then []
      else [c0.filter fun v => decide (v ∉ outs)]).flatten = c0.filter fun v => decide (v ∉ outs) := by
    split
    · rename_i h; rw [h]; rfl
    · simp
  refine e2.trans (List.Perm.trans ?_ e1.symm)
  rw [List.flatten_cons, List.flatten_cons, List.flatten_append, List.flatten_append, e3]
  have hp := filter_perm hc0 hn h2
  calc _ = C1.flatten ++ ((outs ++ c0.filter fun v => decide (v ∉ outs)) ++ w.flatten) := by
        simp only [List.append_assoc]
    _ |>.Perm (C1.flatten ++ (c0 ++ w.flatten)) := (hp.append_right _).append_left _
    _ |>.Perm (c0 ++ (C1.flatten ++ w.flatten)) := by
        rw [← List.append_assoc, ← List.append_assoc]
        exact List.perm_append_comm.append_right _

theorem drop_perm {S : Type} {f : S → List Var} {l : List S} (hn : (l.flatMap f).Nodup) {v : S}
    (hv : v ∈ l) {h : Var} (hh : h ∈ f v) : l.Perm (v :: l.filter fun c => decide (h ∉ f c)) := by
  obtain ⟨a, b, rfl⟩ := List.append_of_mem hv
  rw [List.flatMap_append, List.flatMap_cons] at hn
  have h1 : ∀ c ∈ a, h ∉ f c := fun c hc hhc =>
    (List.nodup_append.1 hn).2.2 h (List.mem_flatMap.2 ⟨c, hc, hhc⟩) h (by simp [hh]) rfl
  have h2 : ∀ c ∈ b, h ∉ f c := fun c hc hhc =>
    (List.nodup_append.1 (List.nodup_append.1 hn).2.1).2.2 h hh h
      (List.mem_flatMap.2 ⟨c, hc, hhc⟩) rfl
  have e1 : (a.filter fun c => decide (h ∉ f c)) = a := List.filter_eq_self.2 fun c hc => by simpa using h1 c hc
  have e2 : (b.filter fun c => decide (h ∉ f c)) = b := List.filter_eq_self.2 fun c hc => by simpa using h2 c hc
  rw [List.filter_append, List.filter_cons, e1, e2, if_neg (by simpa using hh)]
  exact List.perm_middle

theorem dropView_ok {l : List View} {y : Crosscat} (hn : (l.flatMap (cgpmI 2).outputs).Nodup) {u v : View}
    (hv : v ∈ l) (hh : ((cgpmI 2).outputs u).headD 0 ∈ (cgpmI 2).outputs v)
    (h : dropView ⟨l⟩ u = .ok y) : l.Perm (v :: y.cgpms) := by
  unfold dropView at h
  rw [productRemove_ok (p := ⟨l⟩) hn] at h
  obtain ⟨rfl, -⟩ := init_ok h
  exact drop_perm hn hv hh

theorem putView_ok {x y : Crosscat} {v : View} (h : putView x v = .ok y) :
    y.cgpms = x.cgpms ++ [v] ∧ Product.validate (cgpmI 2) (x.cgpms ++ [v]) = .ok () := by
  obtain ⟨rfl, h2⟩ := init_ok h
  exact ⟨rfl, h2⟩

theorem restore_ok {x y : Crosscat} {v : View} (h : restore x v = .ok y)
    (hn : (x.cgpms.flatMap (cgpmI 2).outputs).Nodup) :
    y.cgpms = x.cgpms ++ (if 1 < ((cgpmI 2).outputs v).length then [v] else []) ∧
      (y.cgpms.flatMap (cgpmI 2).outputs).Nodup := by
  unfold restore at h
  split at h
  · rename_i hl
    obtain ⟨h1, h2⟩ := putView_ok h
    rw [if_pos hl, h1]
    exact ⟨rfl, Product.validate_nodup h2⟩
  · rename_i hl
    cases h
    rw [if_neg hl, List.append_nil]
    exact ⟨rfl, hn⟩

/-- What the moves have in common. -/
theorem move {Z Z' N : List Var} {A : (RowId → Prop) → Prop} {x x1 x' : Crosscat}
    (hs : Same Z [] (Rows Z x) x x1) (ha : Alike x x1) (hA : ∀ R, A R → Rows Z x R)
    {outs : List Var} (hnd : outs.Nodup) {v0 v0' T : View} (hv0 : v0 ∈ x1.cgpms)
    (ho : ∀ o ∈ outs, o ∈ viewColumns v0) (e0 : outs.foldlM (removeCgpm 2) v0 = .ok v0')
    {V1 w : List View} (hp : x1.cgpms.Perm (v0 :: (V1 ++ w)))
    (hp' : x'.cgpms.Perm (T :: ((if 1 < ((cgpmI 2).outputs v0').length then [v0'] else []) ++ w)))
    (hval : Product.validate (cgpmI 2) x'.cgpms = .ok ())
    (hTc : viewColumns T = V1.flatMap viewColumns ++ outs)
    (hT : OkView Z' N ((cgpmI 3).outputs (whole x)) A (fun r a => (cgpmTab Z' 3).cell (whole x) r a) T)
    (hZ : ∀ v ∈ (if 1 < ((cgpmI 2).outputs v0').length then [v0'] else []) ++ w,
      ∀ a ∈ (cgpmI 2).outputs v, a ∈ Z ↔ a ∈ Z') (hpl : ∀ a ∈ columns x, a ∉ Z') :
    Same Z' N A x x' ∧ MovedCols (V1.map viewColumns) (x.cgpms.map viewColumns) (x'.cgpms.map viewColumns) outs := by
  obtain ⟨m, p, hf⟩ := flat_of_reg (hs.cc.viewReg hv0) (hs.cc.views v0 hv0)
  obtain ⟨-, m', p', f1, f2, f3, f4⟩ := remove_views (Z := Z) hf e0
  have hcol : viewColumns v0' = (viewColumns v0).filter fun v => decide (v ∉ outs) := by
    unfold viewColumns
    rw [f1.outputs, hf.outputs]
    exact f3
  have hlen : 1 < ((cgpmI 2).outputs v0').length ↔ viewColumns v0' ≠ [] := by
    unfold viewColumns
    rw [f1.outputs, List.length_cons, List.tail_cons, ← List.length_pos_iff]
    omega
  have hmoved : MovedCols (V1.map viewColumns) (x.cgpms.map viewColumns) (x'.cgpms.map viewColumns) outs := by
    refine ⟨viewColumns v0, w.map viewColumns, ?_, ho, ?_⟩
    · rw [ha.cols]
      have := hp.map viewColumns
      simpa using this
    · have := hp'.map viewColumns
      rw [List.map_cons, List.map_append, hTc, List.flatMap_def] at this
      convert this using 3
      rw [← hcol]
      by_cases hc : viewColumns v0' = []
      · rw [if_pos hc, if_neg (by rw [hlen]; exact not_not.2 hc)]; rfl
      · rw [if_neg hc, if_pos (hlen.2 hc)]; rfl
  have hcolnd : (columns x).Nodup := by
    rw [ha.columns]
    refine hs.cc.nodup.sublist ?_
    unfold columns
    generalize x1.cgpms = l
    induction l with
    | nil => exact .slnil
    | cons v l ih => exact (List.tail_sublist _).append ih
  have hcols : (columns x').Perm (columns x) := by
    unfold columns at hcolnd ⊢
    rw [List.flatMap_def] at hcolnd ⊢
    rw [List.flatMap_def]
    exact hmoved.perm hcolnd hnd
  refine ⟨assemble hval ?_ (fun a h => hpl a (hcols.mem_iff.1 h)) ?_, hmoved⟩
  · intro hn
    rw [hn] at hp'
    exact absurd hp'.length_eq (by simp)
  · intro v hv
    rcases List.mem_cons.1 (hp'.mem_iff.1 hv) with rfl | hv
    · exact hT
    · have hZv := hZ v hv
      have key : OkView Z [] ((cgpmI 3).outputs (whole x)) (Rows Z x)
          (fun r a => (cgpmTab Z 3).cell (whole x) r a) v := by
        have hok1 : ∀ u ∈ x1.cgpms, OkView Z [] ((cgpmI 3).outputs (whole x)) (Rows Z x)
            (fun r a => (cgpmTab Z 3).cell (whole x) r a) u := by
          intro u hu
          refine ⟨hs.cc.viewReg hu, hs.cc.views u hu, fun r a hau hz => ?_, fun r a hau _ k hk => ?_,
            fun R hR => hs.rows R hR u hu,
            fun a hau _ => hs.outs a (List.mem_flatMap.2 ⟨u, hu, hau⟩) (by simp)⟩
          · rw [← hs.cc.cell hu hau r]
            refine hs.cell r a (mem_columns.2 ⟨u, hu, ?_⟩)
            obtain ⟨z, hz', he⟩ := hs.cc.head hu
            rw [he] at hau
            rcases List.mem_cons.1 hau with rfl | hau
            · exact absurd hz' hz
            · exact hau
          · rw [← hs.cc.cell hu hau r]
            exact hs.kept r a (List.mem_flatMap.2 ⟨u, hu, hau⟩) (by simp) k hk
        rcases List.mem_append.1 hv with hv | hv
        · split at hv
          · rename_i hl
            rw [List.mem_singleton] at hv
            subst hv
            obtain ⟨g1, g2, g3⟩ := f4 (hs.cc.viewReg hv0) hl
            have h0 := hok1 v0 hv0
            have hsub : ∀ a ∈ (cgpmI 2).outputs v, a ∈ (cgpmI 2).outputs v0 := by
              intro a hav
              rw [f1.outputs, f2, f3] at hav
              rw [hf.outputs]
              rcases List.mem_cons.1 hav with rfl | hav
              · exact List.mem_cons_self
              · exact List.mem_cons_of_mem _ (List.mem_of_mem_filter hav)
            exact ⟨g1, f1.view, fun r a hav hz => (g2 r a hav).trans (h0.cell r a (hsub a hav) hz),
              fun r a hav hN k hk => (g2 r a hav).trans (h0.kept r a (hsub a hav) hN k hk),
              fun R hR r => (g3 r).trans (h0.rows R hR r),
              fun a hav hN => h0.outs a (hsub a hav) hN⟩
          · cases hv
        · exact hok1 v (hp.mem_iff.2 (by simp [hv]))
      refine ⟨regZ 2 v hZv key.reg, key.view, fun r a hav hz => ?_, fun r a hav _ k hk => ?_,
        fun R hR r => by rw [(cellsZ Z' Z 2).2]; exact key.rows R (hA R hR) r,
        fun a hav _ => key.outs a hav (by simp)⟩
      · rw [(cellsZ Z' Z 2).1, (cellsZ Z' Z 3).1]
        exact key.cell r a hav fun h => hz ((hZv a hav).1 h)
      · rw [(cellsZ Z' Z 3).1] at hk
        rw [(cellsZ Z' Z 2).1]
        exact key.kept r a hav (by simp) k hk

/-- A move to an existing view. -/
theorem move_existing {Z : List Var} {x x1 x' y1 y2 y3 : Crosscat} (h : CC Z x)
    (hs : Same Z [] (Rows Z x) x x1)
    (ha : Alike x x1) {outs : List Var} (hnd : outs.Nodup) {v0 v0' u1 v1 T : View}
    {i0 i1 : Nat} (hi : i0 ≠ i1) (hv0 : x1.cgpms[i0]? = some v0) (hv1 : x.cgpms[i1]? = some v1)
    (hu1 : (cgpmI 2).outputs u1 = (cgpmI 2).outputs v1)
    (ho : ∀ o ∈ outs, o ∈ viewColumns v0) (e0 : outs.foldlM (removeCgpm 2) v0 = .ok v0')
    (hT : Proposal Z (fun r a => (cgpmTab Z 3).cell (whole x1) r a) outs v1 T)
    (e1 : dropView x1 v0 = .ok y1) (e2 : restore y1 v0' = .ok y2) (e3 : dropView y2 u1 = .ok y3)
    (e4 : putView y3 T = .ok x') :
    Same Z [] (Rows Z x) x x' ∧ MovedCols [viewColumns v1] (x.cgpms.map viewColumns) (x'.cgpms.map viewColumns)
      outs := by
  have m0 : v0 ∈ x1.cgpms := List.mem_of_getElem? hv0
  have m1 : v1 ∈ x.cgpms := List.mem_of_getElem? hv1
  -- the view to which the columns move, in `x1`
  obtain ⟨w1, hw1, how1⟩ : ∃ w1, x1.cgpms[i1]? = some w1 ∧
      (cgpmI 2).outputs w1 = (cgpmI 2).outputs v1 := by
    have := congrArg (fun l => l[i1]?) ha
    simp only [List.getElem?_map, hv1, Option.map_some] at this
    rcases hw : x1.cgpms[i1]? with _ | w1
    · rw [hw] at this; cases this
    · rw [hw] at this
      exact ⟨w1, rfl, (Option.some.inj this).symm⟩
  have mw1 : w1 ∈ x1.cgpms := List.mem_of_getElem? hw1
  obtain ⟨z0, hz0, hout0⟩ := hs.cc.head m0
  obtain ⟨z1, hz1, hout1⟩ := h.head m1
  have p1 : x1.cgpms.Perm (v0 :: y1.cgpms) := dropView_ok hs.cc.nodup m0 (by rw [hout0]; simp) e1
  -- the two views are different
  have hdisj : ∀ a ∈ (cgpmI 2).outputs v0, a ∉ (cgpmI 2).outputs w1 := by
    intro a ha0 ha1
    have hn := hs.cc.nodup
    have hij : ∀ (l : List View) (i j : Nat) (u v : View), (l.flatMap (cgpmI 2).outputs).Nodup →
        l[i]? = some u → l[j]? = some v → a ∈ (cgpmI 2).outputs u → a ∈ (cgpmI 2).outputs v →
        i = j := by
      intro l
      induction l with
      | nil => intro i j u v _ hi; simp at hi
      | cons c l ih =>
        intro i j u v hn hi hj hu hv
        rw [List.flatMap_cons, List.nodup_append] at hn
        rcases i with _ | i <;> rcases j with _ | j
        · rfl
        · simp at hi hj
          subst hi
          exact absurd rfl (hn.2.2 a hu a (List.mem_flatMap.2 ⟨v, List.mem_of_getElem? hj, hv⟩))
        · simp at hi hj
          subst hj
          exact absurd rfl (hn.2.2 a hv a (List.mem_flatMap.2 ⟨u, List.mem_of_getElem? hi, hu⟩))
        · simp at hi hj
          rw [ih i j u v hn.2.1 hi hj hu hv]
    exact hi (hij _ _ _ _ _ hn hv0 hw1 ha0 ha1)
  have my1 : w1 ∈ y1.cgpms := by
    rcases List.mem_cons.1 (p1.mem_iff.1 mw1) with rfl | hm
    · exact absurd (by rw [hout0]; simp : z0 ∈ _) (hdisj z0 (by rw [hout0]; simp))
    · exact hm
  have hny1 : (y1.cgpms.flatMap (cgpmI 2).outputs).Nodup := by
    have := (p1.flatMap_right (cgpmI 2).outputs).nodup_iff.1 hs.cc.nodup
    rw [List.flatMap_cons, List.nodup_append] at this
    exact this.2.1
  obtain ⟨p2, hny2⟩ := restore_ok e2 hny1
  have p3 : y2.cgpms.Perm (w1 :: y3.cgpms) :=
    dropView_ok hny2 (by rw [p2]; simp [my1]) (by rw [hu1, how1, hout1]; simp) e3
  obtain ⟨p4, hval⟩ := putView_ok e4
  -- the other views
  obtain ⟨wa, wb, hw⟩ := List.append_of_mem my1
  have hwp : y1.cgpms.Perm (w1 :: (wa ++ wb)) := by rw [hw]; exact List.perm_middle
  have p5 : y3.cgpms.Perm ((wa ++ wb) ++
      (if 1 < ((cgpmI 2).outputs v0').length then [v0'] else [])) := by
    refine (List.Perm.cons_inv (a := w1) (p3.symm.trans ?_))
    rw [p2]
    exact (hwp.append_right _)
  have hcw1 : viewColumns w1 = viewColumns v1 := by unfold viewColumns; rw [how1]
  have hT' : OkView Z [] ((cgpmI 3).outputs (whole x)) (Rows Z x) (fun r a => (cgpmTab Z 3).cell (whole x) r a) T := by
    have hnew : ∀ r, ∀ a ∈ outs, (cgpmTab Z 2).cell T r a = (cgpmTab Z 3).cell (whole x) r a := by
      intro r a hao
      rw [hT.new r a hao]
      exact hs.cell r a (mem_columns.2 ⟨v0, m0, ho a hao⟩)
    refine ⟨hT.reg, hT.view, fun r a haT hz => ?_, fun r a haT _ k hk => ?_, fun R hR r => ?_,
      fun a haT _ => ?_⟩
    · by_cases hao : a ∈ outs
      · exact hnew r a hao
      · rw [hT.out] at haT
        rw [hT.cell r a hz hao]
        exact (h.cell m1 ((List.mem_append.1 haT).resolve_right hao) r).symm
    · by_cases hao : a ∈ outs
      · rw [hnew r a hao]; exact hk
      · rw [hT.out] at haT
        refine hT.kept r a k ?_
        rw [← h.cell m1 ((List.mem_append.1 haT).resolve_right hao) r]
        exact hk
    · rw [hT.rows, hR v1 m1]
      refine ⟨fun h' => h'.elim id ?_, .inl⟩
      exact hs.cc.valued (fun o hoo => mem_columns.2 ⟨v0, m0, ho o hoo⟩) R (hs.rows R hR) r
    · rw [hT.out] at haT
      rcases List.mem_append.1 haT with ha' | ha'
      · exact List.mem_flatMap.2 ⟨v1, m1, ha'⟩
      · exact h.mem_outputs (ha.columns ▸ mem_columns.2 ⟨v0, m0, ho a ha'⟩)
  have := move (Z' := Z) (V1 := [w1]) (w := wa ++ wb) hs ha (fun _ h => h) hnd m0 ho e0 (p1.trans (hwp.cons v0)) (by
      rw [p4]
      refine (List.perm_append_comm).trans (List.Perm.cons T (p5.trans List.perm_append_comm)))
    (by rw [p4]; exact hval) (by
      rw [List.flatMap_cons, List.flatMap_nil, List.append_nil, hcw1]
      unfold viewColumns
      rw [hT.out, hout1]
      rfl) hT' (fun _ _ _ _ => Iff.rfl) h.plain
  rw [List.map_cons, List.map_nil, hcw1] at this
  exact this

theorem valued_congr {X Y : RowId → Var → Option Val} {outs : List Var} {r : RowId}
    (h : ∀ o ∈ outs, X r o = Y r o) : Valued X outs r ↔ Valued Y outs r := by
  constructor
  · rintro ⟨o, ho, hc⟩; exact ⟨o, ho, h o ho ▸ hc⟩
  · rintro ⟨o, ho, hc⟩; exact ⟨o, ho, (h o ho).symm ▸ hc⟩

/-- A move to a new view. -/
theorem move_singleton {Z : List Var} {x x1 x' y1 y2 : Crosscat} (h : CC Z x)
    (hs : Same Z [] (Rows Z x) x x1)
    (ha : Alike x x1) {outs : List Var} (hnd : outs.Nodup) {v0 v0' T : View}
    (hv0 : v0 ∈ x1.cgpms) (ho : ∀ o ∈ outs, o ∈ viewColumns v0)
    (e0 : outs.foldlM (removeCgpm 2) v0 = .ok v0') {z : Var}
    (hTo : (cgpmI 2).outputs T = z :: outs)
    (hT : z ∉ outs → Single Z (fun r a => (cgpmTab Z 3).cell (whole x1) r a) outs z T)
    (e1 : dropView x1 v0 = .ok y1) (e2 : restore y1 v0' = .ok y2) (e4 : putView y2 T = .ok x') :
    Same (z :: Z) [z] (fun R => Rows Z x R ∧ ∀ r, R r →
        Valued (fun r a => (cgpmTab Z 3).cell (whole x) r a) outs r) x x' ∧
      (T ∈ x'.cgpms ∧ ∀ r, (cgpmTab Z 2).present T r ↔
        Valued (fun r a => (cgpmTab Z 3).cell (whole x) r a) outs r) ∧ MovedCols [] (x.cgpms.map viewColumns) (x'.cgpms.map viewColumns) outs := by
  obtain ⟨z0, hz0, hout0⟩ := hs.cc.head hv0
  have p1 : x1.cgpms.Perm (v0 :: y1.cgpms) := dropView_ok hs.cc.nodup hv0 (by rw [hout0]; simp) e1
  have hny1 : (y1.cgpms.flatMap (cgpmI 2).outputs).Nodup := by
    have := (p1.flatMap_right (cgpmI 2).outputs).nodup_iff.1 hs.cc.nodup
    rw [List.flatMap_cons, List.nodup_append] at this
    exact this.2.1
  obtain ⟨p2, hny2⟩ := restore_ok e2 hny1
  obtain ⟨p4, hval⟩ := putView_ok e4
  have hnd' := Product.validate_nodup hval
  rw [List.flatMap_append, List.flatMap_cons, List.flatMap_nil, List.append_nil, hTo,
    List.nodup_append] at hnd'
  have hz : z ∉ outs := (List.nodup_cons.1 hnd'.2.1).1
  have hzy : ∀ v ∈ y2.cgpms, z ∉ (cgpmI 2).outputs v := fun v hv hzv =>
    hnd'.2.2 z (List.mem_flatMap.2 ⟨v, hv, hzv⟩) z (by simp) rfl
  have hT := hT hz
  have hnew : ∀ r, ∀ a ∈ outs, (cgpmTab Z 2).cell T r a = (cgpmTab Z 3).cell (whole x) r a := by
    intro r a hao
    rw [hT.new r a hao]
    exact hs.cell r a (mem_columns.2 ⟨v0, hv0, ho a hao⟩)
  have hTcol : viewColumns T = outs := by unfold viewColumns; rw [hTo]; rfl
  have hne : ∀ a ∈ columns x, a ≠ z := by
    rintro a hac rfl
    rw [ha.columns] at hac
    obtain ⟨v, hv, hav⟩ := mem_columns.1 hac
    rcases List.mem_cons.1 (p1.mem_iff.1 hv) with rfl | hv
    · -- the column stays in the view it was in
      obtain ⟨m, p, hf⟩ := flat_of_reg (hs.cc.viewReg hv0) (hs.cc.views v hv0)
      obtain ⟨-, m', p', f1, f2, f3, f4⟩ := remove_views (Z := Z) hf e0
      have hcol : viewColumns v0' = (viewColumns v).filter fun b => decide (b ∉ outs) := by
        unfold viewColumns
        rw [f1.outputs, hf.outputs]
        exact f3
      have hmem : a ∈ viewColumns v0' := by
        rw [hcol, List.mem_filter]
        exact ⟨hav, by simpa using hz⟩
      have hl : 1 < ((cgpmI 2).outputs v0').length := by
        unfold viewColumns at hmem
        rw [f1.outputs, List.tail_cons] at hmem
        rw [f1.outputs, List.length_cons]
        have := List.length_pos_of_mem hmem
        omega
      exact hzy v0' (by rw [p2, if_pos hl]; simp) (columns_sub hmem)
    · exact hzy v (by rw [p2]; simp [hv]) (columns_sub hav)
  have hT' : OkView (z :: Z) [z] ((cgpmI 3).outputs (whole x)) (fun R => Rows Z x R ∧ ∀ r, R r →
      Valued (fun r a => (cgpmTab Z 3).cell (whole x) r a) outs r) (fun r a => (cgpmTab (z :: Z) 3).cell (whole x) r a) T := by
    refine ⟨hT.reg, hT.view, fun r a haT hza => ?_, fun r a haT haz k hk => ?_, fun R hR r => ?_,
      fun a haT haz => ?_⟩
    · rw [hTo] at haT
      rcases List.mem_cons.1 haT with rfl | haT
      · exact absurd List.mem_cons_self hza
      · rw [(cellsZ (z :: Z) Z 2).1, (cellsZ (z :: Z) Z 3).1]
        exact hnew r a haT
    · rw [hTo] at haT
      rcases List.mem_cons.1 haT with rfl | haT
      · exact absurd List.mem_cons_self haz
      · rw [(cellsZ (z :: Z) Z 3).1] at hk
        rw [(cellsZ (z :: Z) Z 2).1, hnew r a haT]
        exact hk
    · rw [(cellsZ (z :: Z) Z 2).2, hT.rows]
      refine ⟨hs.cc.valued (fun o hoo => mem_columns.2 ⟨v0, hv0, ho o hoo⟩) R (hs.rows R hR.1) r,
        fun h' => ?_⟩
      obtain ⟨o, hoo, hc⟩ := hR.2 r h'
      exact ⟨o, hoo, by dsimp only; rw [hs.cell r o (mem_columns.2 ⟨v0, hv0, ho o hoo⟩)]; exact hc⟩
    · rw [hTo] at haT
      rcases List.mem_cons.1 haT with rfl | haT
      · exact absurd List.mem_cons_self haz
      · exact h.mem_outputs (ha.columns ▸ mem_columns.2 ⟨v0, hv0, ho a haT⟩)
  have hTmem : T ∈ x'.cgpms := by rw [p4]; simp
  have hTrows : ∀ r, (cgpmTab Z 2).present T r ↔
      Valued (fun r a => (cgpmTab Z 3).cell (whole x) r a) outs r := by
    intro r
    rw [hT.rows]
    exact valued_congr fun o hoo => hs.cell r o (mem_columns.2 ⟨v0, hv0, ho o hoo⟩)
  refine (fun t => ⟨t.1, ⟨hTmem, hTrows⟩, t.2⟩) <| move (Z' := z :: Z) (V1 := []) (w := y1.cgpms) hs ha (fun _ h => h.1) hnd hv0 ho e0 p1 ?_
    (by rw [p4]; exact hval) hTcol hT' ?_ ?_
  · rw [p4, p2]
    exact (List.perm_append_comm (l₁ := _ ++ _) (l₂ := [T])).trans
      (List.Perm.cons T (List.perm_append_comm (l₁ := y1.cgpms)))
  · intro v hv a hav
    have hv : v ∈ y2.cgpms := by
      rw [p2, List.mem_append]
      exact (List.mem_append.1 hv).symm
    have : a ≠ z := fun e => hzy v hv (e ▸ hav)
    simp [this]
  · intro a hac
    simp [hne a hac, h.plain a hac]

end Cgpm2.Views
