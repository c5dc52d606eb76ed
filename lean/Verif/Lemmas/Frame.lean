import Verif.Lemmas.TowerTable

/-!
# Structure and score of CGPMs that keep a table (helpers)
-/

namespace Cgpm2
open Spec

variable {S : Type}

theorem Prim.score_empty {p : Prim} (hI : p.Inv) (hd : p.data = []) : p.score = 0 := by
  cases p with
  | crp c =>
    have hI : c.Inv := hI
    have hd : c.data = [] := by simpa [Prim.data] using hd
    have hN : c.N = 0 := by rw [hI.N, hd]; rfl
    have hc : c.counts = [] := by
      rcases hcc : c.counts with _ | ⟨⟨k, v⟩, l⟩
      · rfl
      · have := hI.counts k
        simp [hcc, Dict.get?, Crp.seated, hd, Dict.values] at this
    simp [Prim.score, Crp.score, hd, hN, hc, Dict.values, Dict.keys]
  | categorical c =>
    have hI : c.Inv := hI
    have hd : c.data = [] := hd
    have hN : c.N = 0 := by rw [hI.N, hd]; rfl
    simp [Prim.score, Categorical.score, hN, Categorical.cnt, hd, Spec.valuesOf, Spec.present]
  | bernoulli c =>
    have hd : c.data = [] := hd
    simp [Prim.score, Bernoulli.score, Bernoulli.ones, Bernoulli.zeros, hd, Spec.valuesOf, Spec.present]
  | normal c =>
    have hI : c.Inv := hI
    have hd : c.data = [] := hd
    have hr : c.r ≠ 0 := hI.rPos.ne'
    have e : c.s + c.r * c.m * c.m - (c.r * c.m) ^ 2 / c.r = c.s := by field_simp; ring
    simp [e, Prim.score, Normal.score, Normal.xs, hd, Spec.valuesOf, Spec.present, Normal.logZPost, Normal.sPost]
  | normalUC c =>
    have hd : c.data = [] := hd
    simp [Prim.score, NormalUC.score, NormalUC.xs, hd, Spec.valuesOf, Spec.present]
  | poisson c =>
    have hI : c.Inv := hI
    have hd : c.data = [] := hd
    simp [Prim.score, Poisson.score, hI.N, hI.sumX, hI.sumLogFactX, hd, Spec.valuesOf, Spec.present]

theorem exists_notMem_list (l : List Val) : ∃ k, k ∉ l := by
  have hinj : Function.Injective fun n : Nat => Val.num (n : ℚ) := by
    intro a b hab
    simpa using hab
  obtain ⟨k, -, hk⟩ := (Set.infinite_range_of_injective hinj).exists_notMem_finset l.toFinset
  exact ⟨k, by simpa using hk⟩

/-- The base of a flexible mixture is as its unused copies. -/
theorem flexMix_base {I : Iface S} {M : Sem S} (L : Laws I M) {Z : List Var} {T : Tab S}
    (K : TLaws I M Z T) {m : FlexMix S} (h : (flexMixTab I M Z T).Reg m) :
    T.Reg m.array.base ∧ M.E m.array.base (M.strip m.array.base) ∧ ∀ r, T.Fresh m.array.base r := by
  have hE := L.strip _ h.inv.2.1.1.1
  -- an index that is not in use
  have hinf : ∀ r, ∃ k : Val, Dict.get? m.array.cgpms k = none ∧
      Dict.get? m.rowidToComponent r ≠ some k := by
    intro r
    obtain ⟨k, hk⟩ := exists_notMem_list (Dict.keys m.array.cgpms ++ Dict.values m.rowidToComponent)
    rw [List.mem_append, not_or] at hk
    refine ⟨k, (Dict.get?_eq_none_iff _ _).2 hk.1, fun hc => hk.2 ?_⟩
    exact List.mem_map.2 ⟨_, Dict.mem_of_get? hc, rfl⟩
  have hcomp : ∀ k, Dict.get? m.array.cgpms k = none →
      (flexArr M).get m.array k = some (M.strip m.array.base) := by
    intro k hk
    change some (m.array.comp M k) = _
    unfold FlexArray.comp
    rw [hk]
    rfl
  obtain ⟨k, hk, -⟩ := hinf none
  have hrs := (h.comp k _ (hcomp k hk)).1
  have hr := K.reg_E _ _ (L.symm _ _ hE) hrs
  refine ⟨hr, hE, fun r v => ?_⟩
  obtain ⟨k, hk, hk'⟩ := hinf r
  rw [K.cell_E _ _ hE hr]
  exact h.fresh r k _ (hcomp k hk) hk' v

/-- What structure and contents say about outputs and score. -/
structure Frame (I : Iface S) (M : Sem S) (T : Tab S) : Prop where
  outs : ∀ c b, T.Reg c → T.Reg b → M.shape c = M.shape b → I.outputs c = I.outputs b
  zero : ∀ c, T.Reg c → (∀ r, T.Fresh c r) → Scored I c → I.logpdfScore c = .ok (.fin 0)
  some : ∀ c, T.Reg c → I.outputs c ≠ []
  flat : ∀ c l, T.Reg c → M.shape c ≠ .array l

section
variable {I : Iface S} {M : Sem S} {Z : List Var} {T : Tab S}

theorem primFrame (Z : List Var) : Frame primI primSem (primTab Z) where
  outs c b _ _ h := by
    simp only [primSem, Prim.shape, Shape.prim.injEq] at h
    exact h.1
  zero c h hf _ := by
    obtain ⟨o, ho⟩ := Prim.Inv.out h.1.1
    have hd : c.data = [] := by
      rcases hd : c.data with _ | ⟨⟨r, v⟩, l⟩
      · rfl
      · have := hf r o
        simp [primTab, ho, hd, Dict.get?] at this
    change c.logpdfScore = _
    rw [Prim.logpdfScore_eq h.1.1 h.1.2, Prim.score_empty h.1.1 hd]
  some c h := by
    obtain ⟨o, ho⟩ := Prim.Inv.out h.1.1
    change c.outputs ≠ []
    rw [ho]; simp
  flat _ _ _ := nofun

theorem Frame.map_outs (F : Frame I M T) {l l' : List S} (hl : ∀ c ∈ l, T.Reg c)
    (hl' : ∀ c ∈ l', T.Reg c) (h : l.map M.shape = l'.map M.shape) :
    l.map I.outputs = l'.map I.outputs := by
  induction l generalizing l' with
  | nil => cases l' with
    | nil => rfl
    | cons => cases h
  | cons c l ih => cases l' with
    | nil => cases h
    | cons c' l' =>
      simp only [List.map_cons, List.cons.injEq] at h ⊢
      exact ⟨F.outs _ _ (hl _ (by simp)) (hl' _ (by simp)) h.1,
        ih (fun c hc => hl c (by simp [hc])) (fun c hc => hl' c (by simp [hc])) h.2⟩

theorem flatMap_outs {l l' : List S} (h : l.map I.outputs = l'.map I.outputs) :
    l.flatMap I.outputs = l'.flatMap I.outputs := by
  rw [List.flatMap_def, List.flatMap_def, h]

theorem productFrame (F : Frame I M T) : Frame (productI I) (productSem I M) (productTab I T) where
  outs p q hp hq h := by
    simp only [productSem, Shape.product.injEq] at h
    exact flatMap_outs (F.map_outs hp.1 hq.1 h)
  zero p hp hf hs := by
    have h1 := (sumScore_fin_iff I.logpdfScore p.cgpms).1 hs
    have h2 : p.cgpms.mapM I.logpdfScore = .ok (p.cgpms.map fun _ => Fl.fin 0) := by
      apply mapM_ok
      intro c hc
      exact F.zero c (hp.1 c hc) (fun r v => ProdTab.cell_none_iff.1 (hf r v) c hc) (h1 c hc)
    change Product.logpdfScore I p = _
    unfold Product.logpdfScore
    rw [h2]
    simp only [bind, Except.bind, pure, Except.pure, Except.ok.injEq]
    induction p.cgpms with
    | nil => rfl
    | cons c l ih =>
      rw [Fl.sum_eq] at ih ⊢
      rw [List.map_cons, List.sum_cons, ih]
      exact zero_add (0 : Fl)
  some p hp := by
    obtain ⟨c, hc⟩ := List.exists_mem_of_ne_nil _ hp.2.2
    obtain ⟨v, hv⟩ := List.exists_mem_of_ne_nil _ (F.some c (hp.1 c hc))
    exact List.ne_nil_of_mem (List.mem_flatMap.2 ⟨c, hc, hv⟩)
  flat _ _ _ := nofun

theorem finMix_comp {m : FinMix S} (h : (finMixTab I M Z T).Reg m) {c : S}
    (hc : c ∈ m.array.cgpms) : T.Reg c := by
  obtain ⟨j, hj, rfl⟩ := List.mem_iff_getElem.1 hc
  exact (h.comp (.num (j : ℚ)) _ (by
    simp only [finArr, natIndex_nat, Option.bind_some, List.getElem?_eq_getElem hj])).1

theorem finMixFrame (F : Frame I M T) : Frame (finMixI I) (finMixSem M) (finMixTab I M Z T) where
  outs p q hp hq h := by
    have h : Shape.mix p.rowDivide.shape (.array (p.array.cgpms.map M.shape)) =
      Shape.mix q.rowDivide.shape (.array (q.array.cgpms.map M.shape)) := h
    simp only [Shape.mix.injEq, Shape.array.injEq, Prim.shape, Shape.prim.injEq] at h
    have h2 := F.map_outs (fun c hc => finMix_comp hp hc) (fun c hc => finMix_comp hq hc) h.2
    change p.rowDivide.outputs ++ FinArray.outputs I p.array =
      q.rowDivide.outputs ++ FinArray.outputs I q.array
    rw [h.1.1]
    congr 1
    unfold FinArray.outputs
    rcases hp' : p.array.cgpms with _ | ⟨c, l⟩ <;> rcases hq' : q.array.cgpms with _ | ⟨c', l'⟩ <;>
      simp_all
  zero m h _ hs := by
    obtain ⟨x, hx⟩ := (RowMix.scored_iff (AI := finArrayI I) (toM := FinMix.toMetadata I)
      (fromM := FinMix.fromMetadata I) h.inv.1).1 hs
    change FinArray.logpdfScore m.array = _ at hx
    rcases hc : m.array.cgpms with _ | ⟨c, l⟩
    · exact absurd hc h.inv.2.1.2.1
    · rw [FinArray.logpdfScore, hc] at hx; cases hx
  some m h := by
    change m.rowDivide.outputs ++ _ ≠ []
    rw [h.out]; simp
  flat _ _ _ := nofun

theorem flexMixFrame (L : Laws I M) (K : TLaws I M Z T) (F : Frame I M T) :
    Frame (flexMixI I) (flexMixSem I M) (flexMixTab I M Z T) where
  outs p q hp hq h := by
    have h : Shape.mix p.rowDivide.shape (M.shape p.array.base) =
      Shape.mix q.rowDivide.shape (M.shape q.array.base) := h
    simp only [Shape.mix.injEq, Prim.shape, Shape.prim.injEq] at h
    change p.rowDivide.outputs ++ I.outputs p.array.base =
      q.rowDivide.outputs ++ I.outputs q.array.base
    rw [h.1.1, F.outs _ _ (flexMix_base L K hp).1 (flexMix_base L K hq).1 h.2]
  zero m h hf hs := by
    have hr : ∀ r, Dict.get? m.rowidToComponent r = none := by
      intro r
      have := hf r m.indexer
      simpa [flexMixTab, rowMixTab] using this
    have hd : m.rowDivide.data = [] := by
      rcases hd : m.rowDivide.data with _ | ⟨⟨r, v⟩, l⟩
      · rfl
      · have := h.data r
        rw [hr, hd] at this
        simp [Dict.get?] at this
    have h2 : (Dict.values m.array.cgpms).mapM I.logpdfScore =
        .ok ((Dict.values m.array.cgpms).map fun _ => Fl.fin 0) := by
      apply mapM_ok
      intro c hc
      obtain ⟨⟨k, c'⟩, hk, rfl⟩ := List.mem_map.1 hc
      have hg : (flexArr M).get m.array k = some c' := by
        simp only [flexArr, FlexArray.comp, Dict.get?_of_mem h.inv.2.1.2.2.1 hk]
        rfl
      exact F.zero c' (h.comp k _ hg).1 (fun r => h.fresh r k _ hg (by rw [hr]; simp))
        (FlexArray.Inv.mem h.inv.2.1 hc).2
    change RowMix.logpdfScore (flexArrayI I) m = _
    unfold RowMix.logpdfScore
    have h3 : (flexArrayI I).logpdfScore m.array = .ok (.fin 0) := by
      change FlexArray.logpdfScore I m.array = _
      unfold FlexArray.logpdfScore
      rw [h2]
      simp only [bind, Except.bind, pure, Except.pure, Except.ok.injEq]
      induction Dict.values m.array.cgpms with
      | nil => rfl
      | cons c l ih =>
        rw [Fl.sum_eq] at ih ⊢
        rw [List.map_cons, List.sum_cons, ih]
        exact zero_add (0 : Fl)
    rw [Prim.logpdfScore_eq h.inv.1.1 h.inv.1.2, Prim.score_empty h.inv.1.1 hd, h3]
    simp only [bind, Except.bind, pure, Except.pure, Except.ok.injEq]
    exact zero_add (0 : Fl)
  some m h := by
    change m.rowDivide.outputs ++ _ ≠ []
    rw [h.out]; simp
  flat _ _ _ := nofun

theorem nodeFrame (L : Laws I M) (K : TLaws I M Z T) (F : Frame I M T) :
    Frame (nodeI I) (nodeSem I M) (nodeTab I M Z T) where
  outs c b hc hb h := by
    cases c <;> cases b <;> first | exact hc.elim | exact hb.elim | skip
    · exact (primFrame Z).outs _ _ hc hb h
    all_goals first | (exact absurd h (by intro h; cases h)) | skip
    · exact (productFrame F).outs _ _ hc hb h
    · exact (finMixFrame F).outs _ _ hc hb h
    · simp only [nodeSem, finMixSem, flexMixSem, rowMixSem, Shape.mix.injEq] at h
      exact absurd h.2.symm (F.flat _ _ (flexMix_base L K hb).1)
    · simp only [nodeSem, finMixSem, flexMixSem, rowMixSem, Shape.mix.injEq] at h
      exact absurd h.2 (F.flat _ _ (flexMix_base L K hc).1)
    · exact (flexMixFrame L K F).outs _ _ hc hb h
  zero c h hf hs := by
    cases c with
    | prim p => exact (primFrame Z).zero _ h hf hs
    | product p => exact (productFrame F).zero _ h hf hs
    | finArray p => exact h.elim
    | flexArray p => exact h.elim
    | finMix p => exact (finMixFrame F).zero _ h hf hs
    | flexMix p => exact (flexMixFrame L K F).zero _ h hf hs
  some c h := by
    cases c with
    | prim p => exact (primFrame Z).some _ h
    | product p => exact (productFrame F).some _ h
    | finArray p => exact h.elim
    | flexArray p => exact h.elim
    | finMix p => exact (finMixFrame F).some _ h
    | flexMix p => exact (flexMixFrame L K F).some _ h
  flat c l h := by
    cases c with
    | prim p => exact nofun
    | product p => exact nofun
    | finArray p => exact h.elim
    | flexArray p => exact h.elim
    | finMix p => exact nofun
    | flexMix p => exact nofun

end

theorem cgpmFrame (Z : List Var) : (n : Nat) → Frame (cgpmI n) (cgpmSem n) (cgpmTab Z n)
  | 0 => primFrame Z
  | n + 1 => nodeFrame (cgpmLaws n) (cgpmTLaws Z n) (cgpmFrame Z n)

end Cgpm2
