import Verif.Lemmas.MixLaws

/-!
# The two classes of arrays seen as families of components (helpers)

`Arr` names the parts of an array: the component at an index, replacing it, and the record of
the index of each row.  `ArrLaws` says that every method of an array acts on the component at
the index it is given and on nothing else but that record.
-/

namespace Cgpm2
set_option linter.unnecessarySeqFocus false

structure Arr (A S : Type) where
  get : A → Val → Option S
  put : A → Val → S → A
  idx : A → Dict RowId Val
  setIdx : A → Dict RowId Val → A
  x : A → Var
  /-- of the same origin -/
  Same : A → A → Prop

variable {A S : Type}

structure ArrLaws (AI : Iface A) (I : Iface S) (MA : Sem A) (M : Sem S) (R : Arr A S) : Prop where
  get_put : ∀ a k k' c c', R.get a k = some c →
    R.get (R.put a k c') k' = if k' = k then some c' else R.get a k'
  idx_put : ∀ a k c, R.idx (R.put a k c) = R.idx a
  x_put : ∀ a k c, R.x (R.put a k c) = R.x a
  get_setIdx : ∀ a d k, R.get (R.setIdx a d) k = R.get a k
  idx_setIdx : ∀ a d, R.idx (R.setIdx a d) = d
  x_setIdx : ∀ a d, R.x (R.setIdx a d) = R.x a
  same_refl : ∀ a, MA.Inv a → R.Same a a
  same_put : ∀ a b k c, R.Same a b → R.Same a (R.put b k c)
  same_setIdx : ∀ a b d, R.Same a b → R.Same a (R.setIdx b d)
  get_inv : ∀ a k c, MA.Inv a → R.get a k = some c → M.Inv c
  get_E : ∀ a b k c, MA.E a b → R.get a k = some c → ∃ c', R.get b k = some c' ∧ M.E c c'
  E_idx : ∀ a b, MA.E a b → R.idx a = R.idx b
  E_x : ∀ a b, MA.E a b → R.x a = R.x b
  E_intro : ∀ a b, MA.Inv a → MA.Inv b → R.Same a b → R.idx a = R.idx b → R.x a = R.x b →
    (∀ k c, R.get a k = some c → ∃ c', R.get b k = some c' ∧ M.E c c') → MA.E a b
  logpdf : ∀ a k v r t cs g, MA.Inv a → R.get a k = some v →
    AI.logpdf r t cs [(R.x a, k)] (a, g) = ((I.logpdf r t cs [] (v, g)).1,
      (R.put a k (I.logpdf r t cs [] (v, g)).2.1, (I.logpdf r t cs [] (v, g)).2.2))
  simulate : ∀ a k v r t cs N g, MA.Inv a → R.get a k = some v →
    AI.simulate r t cs [(R.x a, k)] N (a, g) = ((I.simulate r t cs [] N (v, g)).1,
      (R.put a k (I.simulate r t cs [] N (v, g)).2.1, (I.simulate r t cs [] N (v, g)).2.2))
  observe : ∀ a k v r o g, MA.Inv a → R.get a k = some v →
    AI.observe r o [(R.x a, k)] (a, g) = match I.observe r o [] (v, g) with
      | (.ok (), (v', g')) => (.ok (), (R.setIdx (R.put a k v') (Dict.set (R.idx a) r k), g'))
      | (.error e, (v', g')) => (.error e, (R.put a k v', g'))
  unobserve : ∀ a k v r g, MA.Inv a → Dict.get? (R.idx a) r = some k → R.get a k = some v →
    AI.unobserve r (a, g) = ((I.unobserve r (v, g)).1,
      (R.put (R.setIdx a (Dict.del (R.idx a) r)) k (I.unobserve r (v, g)).2.1,
        (I.unobserve r (v, g)).2.2))
  unobserve_absent : ∀ a r g, Dict.get? (R.idx a) r = none →
    AI.unobserve r (a, g) = (.error .keyError, (a, g))
  idx_nodup : ∀ a, MA.Inv a → (Dict.keys (R.idx a)).Nodup
  score : ∀ a k v v' d x y u u', MA.Inv a → MA.Inv (R.setIdx (R.put a k v') d) → R.get a k = some v →
    AI.logpdfScore a = .ok (.fin y) → I.logpdfScore v = .ok (.fin u) →
    I.logpdfScore v' = .ok (.fin u') → u' = u + x →
    AI.logpdfScore (R.setIdx (R.put a k v') d) = .ok (.fin (y + x))
  scored : ∀ a k v, MA.Inv a → Scored AI a → R.get a k = some v → Scored I v
  score_setIdx : ∀ a d, AI.logpdfScore (R.setIdx a d) = AI.logpdfScore a
  inv_setIdx : ∀ a d, MA.Inv a → (Dict.keys d).Nodup → MA.Inv (R.setIdx a d)
  outputs_put : ∀ a k v v', MA.Inv a → R.get a k = some v → I.outputs v' = I.outputs v →
    AI.outputs (R.put a k v') = AI.outputs a
  outputs_setIdx : ∀ a d, AI.outputs (R.setIdx a d) = AI.outputs a

theorem popItem_single (x : Var) (k : Val) : popItem [(x, k)] x = .ok (k, []) := by
  simp [popItem, Dict.get?, Dict.del]

/-! ## Flexible arrays -/

/-- The parts of a flexible array. -/
def flexArr (M : Sem S) : Arr (FlexArray S) S where
  get a k := some (a.comp M k)
  put a k c := { a with cgpms := Dict.set a.cgpms k c }
  idx a := a.rowidToIndex
  setIdx a d := { a with rowidToIndex := d }
  x a := a.indexer
  Same a b := M.E a.base b.base

theorem flexArrLaws {I : Iface S} {M : Sem S} (L : Laws I M) :
    ArrLaws (flexArrayI I) I (flexArraySem I M) M (flexArr M) where
  get_put a k k' c c' h := by
    simp only [flexArr, FlexArray.comp_set]
    split <;> rfl
  idx_put _ _ _ := rfl
  x_put _ _ _ := rfl
  get_setIdx _ _ _ := rfl
  idx_setIdx _ _ := rfl
  x_setIdx _ _ := rfl
  same_refl a h := L.refl _ h.1.1
  same_put _ _ _ _ h := h
  same_setIdx _ _ _ h := h
  get_inv a k c h hc := by cases hc; exact (h.2.1 k).1
  get_E a b k c h hc := by cases hc; exact ⟨_, rfl, h.2.2.2.1 k⟩
  E_idx a b h := h.2.2.1
  E_x a b h := h.2.1
  E_intro a b ha hb hs hi hx h := by
    refine ⟨hs, hx, hi, fun k => ?_, ha.1.2, fun k => (ha.2.1 k).2, ha.2.2.1, hb.2.2.1, ha.2.2.2⟩
    obtain ⟨c', h1, h2⟩ := h k _ rfl
    cases h1
    exact h2
  logpdf a k v r t cs g h hv := by
    cases hv
    change FlexArray.logpdf I r t cs [(a.indexer, k)] (a, g) = _
    unfold FlexArray.logpdf
    rw [Py.get_bind]
    dsimp only
    rw [Py.lift_bind, popItem_single]
    exact FlexArray.onCgpm_eq L k _ a g h.1.1
  simulate a k v r t cs N g h hv := by
    cases hv
    change FlexArray.simulate I r t cs [(a.indexer, k)] N (a, g) = _
    unfold FlexArray.simulate
    rw [Py.get_bind]
    dsimp only
    rw [Py.lift_bind, popItem_single]
    exact FlexArray.onCgpm_eq L k _ a g h.1.1
  observe a k v r o g h hv := by
    cases hv
    change FlexArray.observe I r o [(a.indexer, k)] (a, g) = _
    unfold FlexArray.observe
    rw [Py.get_bind]
    dsimp only
    rw [Py.lift_bind, popItem_single]
    dsimp only
    rw [Py.bind_apply, FlexArray.onCgpm_eq L k _ a g h.1.1]
    rcases I.observe r o [] (a.comp M k, g) with ⟨e | u, v', g'⟩ <;> rfl
  unobserve a k v r g h hk hv := by
    cases hv
    change FlexArray.unobserve I r (a, g) = _
    unfold FlexArray.unobserve
    rw [Py.get_bind]
    dsimp only
    rw [Py.lift_bind, Dict.getItem_ok (d := a.rowidToIndex) hk]
    dsimp only
    rw [Py.modify_bind]
    exact FlexArray.onCgpm_eq L k _ { a with rowidToIndex := Dict.del a.rowidToIndex r } g h.1.1
  unobserve_absent a r g hr := by
    change FlexArray.unobserve I r (a, g) = _
    unfold FlexArray.unobserve
    rw [Py.get_bind]
    dsimp only
    rw [Py.lift_bind, Dict.getItem_eq, show Dict.get? a.rowidToIndex r = none from hr]
  idx_nodup a h := h.2.2.2
  score a k v v' d x y u u' ha hb hv hy hu hu' hx := by
    cases hv
    have h1 := FlexArray.score_eq L ha (insert k (Dict.keys a.cgpms).toFinset)
      (Finset.subset_insert _ _)
    have h2 := FlexArray.score_eq L hb (insert k (Dict.keys a.cgpms).toFinset) (by
      intro k' hk'
      simp only [flexArr, List.mem_toFinset, Dict.mem_keys_set] at hk'
      simp only [Finset.mem_insert, List.mem_toFinset]
      tauto)
    change FlexArray.logpdfScore I _ = _
    change FlexArray.logpdfScore I a = _ at hy
    rw [h2]
    rw [h1] at hy
    rw [← Finset.add_sum_erase _ _ (Finset.mem_insert_self k _)] at hy ⊢
    have hcs : ∀ k', FlexArray.comp M ((flexArr M).setIdx ((flexArr M).put a k v') d) k' =
        if k' = k then v' else a.comp M k' := fun k' => FlexArray.comp_set a k k' v'
    simp only [hcs, if_true] at hy ⊢
    have e1 : FlexArray.sc I (a.comp M k) = .fin u := by simp only [FlexArray.sc, hu]
    have e2 : FlexArray.sc I v' = .fin u' := by simp only [FlexArray.sc, hu']
    have e3 : ∑ k' ∈ (insert k (Dict.keys a.cgpms).toFinset).erase k,
        FlexArray.sc I (if k' = k then v' else a.comp M k') =
        ∑ k' ∈ (insert k (Dict.keys a.cgpms).toFinset).erase k, FlexArray.sc I (a.comp M k') := by
      apply Finset.sum_congr rfl
      intro k' hk'
      rw [if_neg (Finset.ne_of_mem_erase hk')]
    rw [e1] at hy
    rw [e2, e3]
    generalize ∑ k' ∈ (insert k (Dict.keys a.cgpms).toFinset).erase k,
      FlexArray.sc I (a.comp M k') = z at hy ⊢
    rcases z with _ | _ | _ | z
    · cases hy
    · cases hy
    · cases hy
    · have hy' : (Except.ok (Fl.fin (u + z)) : Except Err Fl) = .ok (.fin y) := hy
      simp only [Except.ok.injEq, Fl.fin.injEq] at hy'
      change Except.ok (Fl.fin (u' + z)) = _
      rw [hx, ← hy']
      congr 2
      ring
  scored a k v h hs hv := by cases hv; exact (h.2.1 k).2.1
  score_setIdx _ _ := rfl
  inv_setIdx a d h hd := ⟨h.1, h.2.1, h.2.2.1, hd⟩
  outputs_put _ _ _ _ _ _ _ := rfl
  outputs_setIdx _ _ := rfl

/-! ## Finite arrays -/

/-- The position an index value selects, if it is a natural number. -/
def natIndex : Val → Option Nat
  | .nan => none
  | .num q => if isWhole q ∧ 0 ≤ truncate q then some (truncate q).toNat else none

/-- The parts of a finite array. -/
def finArr : Arr (FinArray S) S where
  get a k := (natIndex k).bind fun j => a.cgpms[j]?
  put a k c := match natIndex k with
    | none => a
    | some j => { a with cgpms := a.cgpms.set j c }
  idx a := a.rowidToIndex
  setIdx a d := { a with rowidToIndex := d }
  x a := a.indexer
  Same a b := a.cgpms.length = b.cgpms.length

theorem whole_eq {q : ℚ} (h : isWhole q = true) : q = (truncate q : ℚ) := by
  have hd : q.den = 1 := by simpa [isWhole] using h
  unfold truncate
  rw [hd]
  simp only [Nat.cast_one, Int.tdiv_one]
  conv_lhs => rw [← Rat.num_div_den q, hd]
  simp

theorem natIndex_inj {k k' : Val} {j : Nat} (h : natIndex k = some j) (h' : natIndex k' = some j) :
    k' = k := by
  rcases k with _ | q
  · cases h
  rcases k' with _ | q'
  · cases h'
  simp only [natIndex] at h h'
  split at h
  · split at h'
    · next h1 h2 =>
      simp only [Option.some.injEq] at h h'
      have e : truncate q = truncate q' := by omega
      rw [whole_eq h1.1, whole_eq h2.1, e]
    · cases h'
  · cases h

theorem pyIndex_nat {k : Val} {j n : Nat} (h : natIndex k = some j) (hj : j < n) :
    pyIndex n k = .ok j := by
  rcases k with _ | q
  · cases h
  simp only [natIndex] at h
  split at h
  · next h1 =>
    simp only [Option.some.injEq] at h
    simp only [pyIndex, h1.1, not_true_eq_false, if_false]
    rw [if_pos ⟨h1.2, by omega⟩, h]
  · cases h

theorem FinArray.get_some {a : FinArray S} {k : Val} {c : S}
    (h : (finArr).get a k = some c) : ∃ j, natIndex k = some j ∧ a.cgpms[j]? = some c ∧
      pyIndex a.cgpms.length k = .ok j := by
  obtain ⟨j, h1, h2⟩ := Option.bind_eq_some_iff.1 h
  exact ⟨j, h1, h2, pyIndex_nat h1 (List.getElem?_eq_some_iff.1 h2).1⟩

theorem FinArray.put_eq {a : FinArray S} {k : Val} {j : Nat} (c : S)
    (h : natIndex k = some j) : (finArr).put a k c = { a with cgpms := a.cgpms.set j c } := by
  simp only [finArr, h]

theorem FinArray.put_cases (a : FinArray S) (k : Val) (c : S) :
    (finArr).put a k c = a ∨ ∃ j, (finArr).put a k c = { a with cgpms := a.cgpms.set j c } := by
  simp only [finArr]
  split
  · exact .inl rfl
  · exact .inr ⟨_, rfl⟩

theorem finArrLaws (I : Iface S) (M : Sem S) :
    ArrLaws (finArrayI I) I (finArraySem M) M (finArr) where
  get_put a k k' c c' h := by
    obtain ⟨j, h1, h2, -⟩ := FinArray.get_some h
    rw [FinArray.put_eq c' h1]
    by_cases hk : k' = k
    · subst hk
      simp only [finArr, h1, Option.bind_some, if_true]
      rw [List.getElem?_set_self (List.getElem?_eq_some_iff.1 h2).1]
    · rw [if_neg hk]
      simp only [finArr]
      rcases hj : natIndex k' with _ | j'
      · rfl
      · simp only [Option.bind_some]
        rw [List.getElem?_set_ne]
        rintro rfl
        exact hk (natIndex_inj h1 hj)
  idx_put a k c := by
    rcases FinArray.put_cases a k c with h | ⟨j, h⟩ <;> rw [h] <;> rfl
  x_put a k c := by
    rcases FinArray.put_cases a k c with h | ⟨j, h⟩ <;> rw [h] <;> rfl
  get_setIdx _ _ _ := rfl
  idx_setIdx _ _ := rfl
  x_setIdx _ _ := rfl
  same_refl _ _ := rfl
  same_put a b k c h := by
    rcases FinArray.put_cases b k c with h' | ⟨j, h'⟩
    · rw [h']; exact h
    · rw [h']; exact h.trans (by simp)
  same_setIdx _ _ _ h := h
  get_inv a k c h hc := by
    obtain ⟨j, h1, h2, -⟩ := FinArray.get_some hc
    exact h.1 c (List.mem_of_getElem? h2)
  get_E a b k c h hc := by
    obtain ⟨j, h1, h2, -⟩ := FinArray.get_some hc
    rcases FinArray.forall_get h.1 j with ⟨h3, -⟩ | ⟨d, d', h3, h4, h5⟩
    · rw [h2] at h3; cases h3
    · rw [h2] at h3
      cases h3
      exact ⟨d', by simp only [finArr, h1, Option.bind_some, h4], h5⟩
  E_idx a b h := h.2.2.1
  E_x a b h := h.2.1
  E_intro a b ha hb hs hi hx h := by
    refine ⟨?_, hx, hi, ha.2.1, ha.2.2⟩
    refine List.forall₂_iff_get.2 ⟨hs, fun j hj hj' => ?_⟩
    have hn : natIndex (.num (j : ℚ)) = some j := by
      have := truncate_intCast (j : Int)
      simp only [Int.cast_natCast] at this
      simp [natIndex, isWhole, this]
    obtain ⟨c', h1, h2⟩ := h (.num j) (a.cgpms.get ⟨j, hj⟩) (by
      simp only [finArr, hn, Option.bind_some]
      simp [List.getElem?_eq_getElem hj])
    simp only [finArr, hn, Option.bind_some, List.getElem?_eq_getElem hj',
      Option.some.injEq] at h1
    subst h1
    simpa using h2
  logpdf a k v r t cs g h hv := by
    obtain ⟨j, h1, h2, h3⟩ := FinArray.get_some hv
    change FinArray.logpdf I r t cs [(a.indexer, k)] (a, g) = _
    unfold FinArray.logpdf
    rw [Py.get_bind]
    dsimp only
    rw [Py.lift_bind, popItem_single, FinArray.put_eq _ h1]
    exact FinArray.onCgpm_some h3 h2 g
  simulate a k v r t cs N g h hv := by
    obtain ⟨j, h1, h2, h3⟩ := FinArray.get_some hv
    change FinArray.simulate I r t cs [(a.indexer, k)] N (a, g) = _
    unfold FinArray.simulate
    rw [Py.get_bind]
    dsimp only
    rw [Py.lift_bind, popItem_single, FinArray.put_eq _ h1]
    exact FinArray.onCgpm_some h3 h2 g
  observe a k v r o g h hv := by
    obtain ⟨j, h1, h2, h3⟩ := FinArray.get_some hv
    change FinArray.observe I r o [(a.indexer, k)] (a, g) = _
    unfold FinArray.observe
    rw [Py.get_bind]
    dsimp only
    rw [Py.lift_bind, popItem_single]
    dsimp only
    rw [Py.bind_apply, FinArray.onCgpm_some h3 h2 g]
    rcases I.observe r o [] (v, g) with ⟨e | u, v', g'⟩ <;> dsimp only <;>
      rw [FinArray.put_eq _ h1] <;> rfl
  unobserve a k v r g h hk hv := by
    obtain ⟨j, h1, h2, h3⟩ := FinArray.get_some hv
    change FinArray.unobserve I r (a, g) = _
    unfold FinArray.unobserve
    rw [Py.get_bind]
    dsimp only
    rw [Py.lift_bind, Dict.getItem_ok (d := a.rowidToIndex) hk]
    dsimp only
    rw [Py.modify_bind, FinArray.put_eq _ h1, FinArray.onCgpm_some (a := { a with
      rowidToIndex := Dict.del a.rowidToIndex r }) h3 h2 g]
    rfl
  unobserve_absent a r g hr := by
    change FinArray.unobserve I r (a, g) = _
    unfold FinArray.unobserve
    rw [Py.get_bind]
    dsimp only
    rw [Py.lift_bind, Dict.getItem_eq, show Dict.get? a.rowidToIndex r = none from hr]
  idx_nodup a h := h.2.2
  score a k v v' d x y u u' ha hb hv hy hu hu' hx := by
    exact absurd ⟨y, hy⟩ (FinArray.not_scored a ha)
  scored a k v h hs hv := absurd hs (FinArray.not_scored a h)
  score_setIdx _ _ := rfl
  inv_setIdx a d h hd := ⟨h.1, h.2.1, hd⟩
  outputs_put a k v v' h hv ho := by
    obtain ⟨j, h1, h2, h3⟩ := FinArray.get_some hv
    rw [FinArray.put_eq _ h1]
    change FinArray.outputs I _ = FinArray.outputs I a
    unfold FinArray.outputs
    dsimp only
    rcases hl : a.cgpms with _ | ⟨c, l⟩
    · rfl
    · rw [hl] at h2
      rcases j with _ | j
      · cases h2; exact ho
      · rfl
  outputs_setIdx _ _ := rfl

end Cgpm2
