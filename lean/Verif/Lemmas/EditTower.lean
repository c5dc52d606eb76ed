import Verif.Lemmas.Edit

/-!
# Taking out and adding columns at any depth (helpers)
-/

namespace Cgpm2
open Spec

variable {S : Type}

theorem mapM_alike {f : S → Except Err S} {P : S → S → Prop} {d : Dict Val S}
    (h : ∀ kc ∈ d, ∃ c', f kc.2 = .ok c' ∧ P kc.2 c') :
    ∃ d', (d.mapM fun kc => (do
      let c' ← f kc.2
      pure (kc.1, c') : Except Err (Val × S))) = .ok d' ∧ Alike P d d' := by
  induction d with
  | nil => exact ⟨[], rfl, .nil⟩
  | cons kc d ih =>
    obtain ⟨c', h1, h2⟩ := h kc (by simp)
    obtain ⟨d', h3, h4⟩ := ih fun kc hk => h kc (by simp [hk])
    refine ⟨(kc.1, c') :: d', ?_, .cons ⟨rfl, h2⟩ h4⟩
    rw [List.mapM_cons, h3, h1]
    rfl

theorem mapM_alike_of {f : S → Except Err S} {d d' : Dict Val S}
    (h : (d.mapM fun kc => (do
      let c' ← f kc.2
      pure (kc.1, c') : Except Err (Val × S))) = .ok d') : Alike (fun c c' => f c = .ok c') d d' := by
  induction d generalizing d' with
  | nil => cases h; exact .nil
  | cons kc d ih =>
    rw [List.mapM_cons] at h
    rcases hf : f kc.2 with e | c'
    · rw [hf] at h; cases h
    · rw [hf] at h
      rcases hm : (d.mapM fun kc => (do
          let c' ← f kc.2
          pure (kc.1, c') : Except Err (Val × S))) with e | d1
      · rw [hm] at h; cases h
      · rw [hm] at h
        cases h
        exact .cons ⟨rfl, hf⟩ (ih hm)

theorem except_map_ok {α β : Type} {f : α → β} {x : Except Err α} {y : β}
    (h : x.map f = .ok y) : ∃ a, x = .ok a ∧ f a = y := by
  cases x with
  | error e => cases h
  | ok a => cases h; exact ⟨a, rfl, rfl⟩

/-- How taking out a column acts on the objects of a class. -/
structure RemoveLaw (I : Iface S) (M : Sem S) (T : Tab S) (rm : S → Var → Except Err S)
    (Rem : S → Var → Prop) (blk : S → Var → List Var) : Prop where
  ok : ∀ c o, T.Reg c → Rem c o → ∃ c', rm c o = .ok c' ∧ Edit I T c c' ∧
    I.outputs c' = (I.outputs c).filter fun v => decide (v ∉ blk c o)
  alike : ∀ c b o, T.Reg c → T.Reg b → M.shape c = M.shape b → Rem b o → Rem c o ∧
    blk c o = blk b o ∧ ∀ c' b', rm c o = .ok c' → rm b o = .ok b' → M.shape c' = M.shape b'
  sub : ∀ c o v, v ∈ blk c o → v ∈ I.outputs c

section
variable {I : Iface S} {M : Sem S} {Z : List Var} {T : Tab S}

/-- The outputs of the first block that generates `o`. -/
def firstBlock (I : Iface S) (l : List S) (o : Var) : List Var :=
  ((l.find? fun c => decide (o ∈ I.outputs c)).map I.outputs).getD []

theorem firstBlock_filter {l : List S} (hn : (l.flatMap I.outputs).Nodup) (o : Var) :
    ((l.filter fun c => decide (o ∉ I.outputs c)).length + 1 = l.length ∨
      (l.filter fun c => decide (o ∉ I.outputs c)).length = l.length) ∧
    (l.filter fun c => decide (o ∉ I.outputs c)).flatMap I.outputs =
      (l.flatMap I.outputs).filter fun v => decide (v ∉ firstBlock I l o) := by
  unfold firstBlock
  rcases hf : l.find? (fun c => decide (o ∈ I.outputs c)) with _ | c
  · have h1 : ∀ c ∈ l, o ∉ I.outputs c := by
      intro c hc
      simpa using List.find?_eq_none.1 hf c hc
    have h2 : (l.filter fun c => decide (o ∉ I.outputs c)) = l := by
      rw [List.filter_eq_self]
      intro c hc
      simpa using h1 c hc
    rw [h2]
    exact ⟨.inr rfl, by simp⟩
  · obtain ⟨h1, as, bs, rfl, h2⟩ := List.find?_eq_some_iff_append.1 hf
    have h1 : o ∈ I.outputs c := by simpa using h1
    have h2 : ∀ a ∈ as, o ∉ I.outputs a := fun a ha => by simpa using h2 a ha
    rw [List.flatMap_append, List.flatMap_cons, List.nodup_append, List.nodup_append] at hn
    obtain ⟨-, ⟨-, -, h3⟩, h4⟩ := hn
    have h5 : ∀ b ∈ bs, o ∉ I.outputs b := fun b hb hob =>
      h3 o h1 o (List.mem_flatMap.2 ⟨b, hb, hob⟩) rfl
    have e1 : (as.filter fun c => decide (o ∉ I.outputs c)) = as :=
      List.filter_eq_self.2 fun a ha => by simpa using h2 a ha
    have e2 : (bs.filter fun c => decide (o ∉ I.outputs c)) = bs :=
      List.filter_eq_self.2 fun a ha => by simpa using h5 a ha
    rw [List.filter_append, List.filter_cons, e1, e2, if_neg (by simpa using h1)]
    refine ⟨.inl (by simp; omega), ?_⟩
    rw [List.flatMap_append, List.flatMap_append, List.flatMap_cons, List.filter_append,
      List.filter_append]
    dsimp only [Option.map_some, Option.getD_some]
    have g1 : ((as.flatMap I.outputs).filter fun v => decide (v ∉ I.outputs c)) =
        as.flatMap I.outputs := by
      refine List.filter_eq_self.2 fun v hv => ?_
      simp only [decide_eq_true_eq]
      exact fun hvc => h4 v hv v (List.mem_append_left _ hvc) rfl
    have g2 : ((I.outputs c).filter fun v => decide (v ∉ I.outputs c)) = [] := by
      refine List.filter_eq_nil_iff.2 fun v hv => ?_
      simpa using hv
    have g3 : ((bs.flatMap I.outputs).filter fun v => decide (v ∉ I.outputs c)) =
        bs.flatMap I.outputs := by
      refine List.filter_eq_self.2 fun v hv => ?_
      simp only [decide_eq_true_eq]
      exact fun hvc => h3 v hvc v hv rfl
    rw [g1, g2, g3]
    rfl

theorem firstBlock_sub {l : List S} {o v : Var} (h : v ∈ firstBlock I l o) :
    v ∈ l.flatMap I.outputs := by
  unfold firstBlock at h
  rcases hf : l.find? (fun c => decide (o ∈ I.outputs c)) with _ | c
  · rw [hf] at h; simp at h
  · rw [hf] at h
    exact List.mem_flatMap.2 ⟨c, List.mem_of_find?_eq_some hf, h⟩

theorem productRemove_ok {p : Product S} (hn : (p.cgpms.flatMap I.outputs).Nodup) (o : Var) :
    Walk.productRemove I p o = Product.init I (p.cgpms.filter fun c => decide (o ∉ I.outputs c)) := by
  unfold Walk.productRemove
  have := (firstBlock_filter hn o).1
  rw [if_neg (not_not.2 this)]

theorem Frame.filter_shape (F : Frame I M T) {l l' : List S} (hl : ∀ c ∈ l, T.Reg c)
    (hl' : ∀ c ∈ l', T.Reg c) (h : l.map M.shape = l'.map M.shape) (o : Var) :
    (l.filter fun c => decide (o ∉ I.outputs c)).map M.shape =
      (l'.filter fun c => decide (o ∉ I.outputs c)).map M.shape ∧
    firstBlock I l o = firstBlock I l' o := by
  unfold firstBlock
  induction l generalizing l' with
  | nil => cases l' with
    | nil => exact ⟨rfl, rfl⟩
    | cons => cases h
  | cons c l ih => cases l' with
    | nil => cases h
    | cons c' l' =>
      simp only [List.map_cons, List.cons.injEq] at h
      obtain ⟨h1, h2⟩ := ih (fun c hc => hl c (by simp [hc])) (fun c hc => hl' c (by simp [hc])) h.2
      have ho := F.outs _ _ (hl c (by simp)) (hl' c' (by simp)) h.1
      rw [List.filter_cons, List.filter_cons, List.find?_cons, List.find?_cons, ho]
      by_cases hm : o ∈ I.outputs c'
      · simp only [hm, not_true_eq_false, decide_false, Bool.false_eq_true, if_false, decide_true]
        exact ⟨h1, by simp [ho]⟩
      · simp only [hm, not_false_eq_true, decide_true, if_true, decide_false, List.map_cons, h.1,
          h1]
        exact ⟨trivial, h2⟩

theorem productRemoveLaw (K : TLaws I M Z T) (F : Frame I M T) :
    RemoveLaw (productI I) (productSem I M) (productTab I T) (Walk.productRemove I)
      (fun p o => ∃ c ∈ p.cgpms, o ∉ I.outputs c) (fun p o => firstBlock I p.cgpms o) where
  ok p o hp ho := by
    have hn := Product.validate_nodup hp.2.1
    obtain ⟨c, hc, ho⟩ := ho
    obtain ⟨h1, h2⟩ := product_filter K hp (fun c => decide (o ∉ I.outputs c))
      (List.ne_nil_of_mem (List.mem_filter.2 ⟨hc, by simpa using ho⟩))
    exact ⟨_, by rw [productRemove_ok hn, h1], h2, (firstBlock_filter hn o).2⟩
  alike p q o hp hq h ho := by
    simp only [productSem, Shape.product.injEq] at h
    have hn := Product.validate_nodup hp.2.1
    have hn' := Product.validate_nodup hq.2.1
    obtain ⟨h1, h2⟩ := F.filter_shape hp.1 hq.1 h o
    have h3 : p.cgpms.filter (fun c => decide (o ∉ I.outputs c)) ≠ [] := by
      intro h4
      rw [h4] at h1
      obtain ⟨c, hc, ho⟩ := ho
      have := List.map_eq_nil_iff.1 h1.symm
      rw [List.filter_eq_nil_iff] at this
      exact this c hc (by simpa using ho)
    obtain ⟨c, hc⟩ := List.exists_mem_of_ne_nil _ h3
    refine ⟨⟨c, (List.mem_filter.1 hc).1, by simpa using (List.mem_filter.1 hc).2⟩, h2,
      fun c' b' hc' hb' => ?_⟩
    obtain ⟨e1, -⟩ := product_filter K hp _ h3
    obtain ⟨c0, hc0, ho0⟩ := ho
    obtain ⟨e2, -⟩ := product_filter K hq (fun c => decide (o ∉ I.outputs c))
      (List.ne_nil_of_mem (List.mem_filter.2 ⟨hc0, by simpa using ho0⟩))
    rw [productRemove_ok hn, e1] at hc'
    rw [productRemove_ok hn', e2] at hb'
    cases hc'
    cases hb'
    exact congrArg Shape.product h1
  sub p o v hv := firstBlock_sub hv

theorem flexMixRemove_ok {rm : S → Var → Except Err S} {m : FlexMix S} {o : Var} {b : S}
    {cs : Dict Val S} {x : Var} (hm : m.rowDivide.outputs = [x]) (hx : x ≠ o)
    (hb : rm m.array.base o = .ok b)
    (hc : (m.array.cgpms.mapM fun kc => (do
      let c' ← rm kc.2 o
      pure (kc.1, c') : Except Err (Val × S))) = .ok cs) :
    Walk.flexMixRemove rm m o =
      .ok { m with array := { m.array with base := b, cgpms := cs } } := by
  unfold Walk.flexMixRemove Walk.flexArrayRemove
  have hi : RowMix.indexer m = x := by simp [RowMix.indexer, hm]
  rw [if_neg (by rw [hi]; exact Ne.symm hx), hb, hc]
  simp [bind, Except.bind, pure, Except.pure, FlexMix.init, hm, FlexArray.init]

theorem flexMixRemove_of {rm : S → Var → Except Err S} {m m' : FlexMix S} {o : Var}
    (h : Walk.flexMixRemove rm m o = .ok m') : m'.rowDivide = m.rowDivide ∧
      rm m.array.base o = .ok m'.array.base := by
  unfold Walk.flexMixRemove Walk.flexArrayRemove at h
  split at h
  · cases h
  rcases hb : rm m.array.base o with e | b
  · rw [hb] at h; cases h
  rw [hb] at h
  rcases hc : (m.array.cgpms.mapM fun kc => (do
      let c' ← rm kc.2 o
      pure (kc.1, c') : Except Err (Val × S))) with e | cs
  · rw [hc] at h; cases h
  rw [hc] at h
  simp only [bind, Except.bind, pure, Except.pure, FlexMix.init] at h
  split at h
  · cases h
  · next v hv =>
    split at hv
    · cases hv
    · cases hv
      cases h
      exact ⟨rfl, rfl⟩

theorem flexMixRemoveLaw (L : Laws I M) (K : TLaws I M Z T) (F : Frame I M T)
    {rm : S → Var → Except Err S} {Rem : S → Var → Prop} {blk : S → Var → List Var}
    (R : RemoveLaw I M T rm Rem blk) :
    RemoveLaw (flexMixI I) (flexMixSem I M) (flexMixTab I M Z T) (Walk.flexMixRemove rm)
      (fun m o => m.rowDivide.outputs ≠ [o] ∧ Rem m.array.base o)
      (fun m o => blk m.array.base o) where
  ok m o h ho := by
    obtain ⟨b1, b2, b3⟩ := flexMix_base L K h
    obtain ⟨b, hb1, hb2, hb3⟩ := R.ok _ o b1 ho.2
    have hcs : ∀ kc ∈ m.array.cgpms, ∃ c', rm kc.2 o = .ok c' ∧
        (Edit I T kc.2 c' ∧ I.outputs c' = I.outputs b ∧ M.shape c' = M.shape b) := by
      intro kc hkc
      have hg : (flexArr M).get m.array kc.1 = some kc.2 := by
        simp only [flexArr, FlexArray.comp, Dict.get?_of_mem h.inv.2.1.2.2.1 hkc]
        rfl
      have hr := h.comp _ _ hg
      have hs : M.shape kc.2 = M.shape m.array.base := by
        have := (h.inv.2.1.2.1 kc.1).2.2
        simp only [flexArr, Option.some.injEq] at hg
        rwa [hg] at this
      obtain ⟨a1, a2, a3⟩ := R.alike _ _ o hr.1 b1 hs ho.2
      obtain ⟨c', h1, h2, h3⟩ := R.ok _ o hr.1 a1
      refine ⟨c', h1, h2, ?_, a3 _ _ h1 hb1⟩
      rw [h3, hb3, a2, F.outs _ _ hr.1 b1 hs]
    obtain ⟨cs, h1, h2⟩ := mapM_alike (f := fun c => rm c o) (d := m.array.cgpms) (P := fun c c' => Edit I T c c' ∧ I.outputs c' = I.outputs b ∧
      M.shape c' = M.shape b) hcs
    have hx : m.indexer ∉ I.outputs b := by
      rw [hb3]
      exact fun hm => h.x_out (List.mem_filter.1 hm).1
    refine ⟨_, flexMixRemove_ok h.out ?_ hb1 h1, flexMix_edit L K F h hb2 hx h2, ?_⟩
    · rintro rfl
      exact ho.1 h.out
    · change m.rowDivide.outputs ++ I.outputs b =
        (m.rowDivide.outputs ++ I.outputs m.array.base).filter _
      rw [List.filter_append, hb3, h.out]
      congr 1
      rw [List.filter_eq_self.2]
      intro v hv
      obtain rfl := List.mem_singleton.1 hv
      simp only [decide_eq_true_eq]
      exact fun hb => h.x_out (R.sub _ _ _ hb)
  alike p q o hp hq h ho := by
    have h : Shape.mix p.rowDivide.shape (M.shape p.array.base) =
      Shape.mix q.rowDivide.shape (M.shape q.array.base) := h
    simp only [Shape.mix.injEq] at h
    obtain ⟨a1, a2, a3⟩ := R.alike _ _ o (flexMix_base L K hp).1 (flexMix_base L K hq).1 h.2 ho.2
    refine ⟨⟨?_, a1⟩, a2, fun p' q' hp' hq' => ?_⟩
    · have := h.1
      simp only [Prim.shape, Shape.prim.injEq] at this
      rw [this.1]; exact ho.1
    · obtain ⟨d1, d2⟩ := flexMixRemove_of hp'
      obtain ⟨e1, e2⟩ := flexMixRemove_of hq'
      change Shape.mix p'.rowDivide.shape (M.shape p'.array.base) =
        Shape.mix q'.rowDivide.shape (M.shape q'.array.base)
      rw [d1, e1, h.1, a3 _ _ d2 e2]
  sub m o v hv := List.mem_append_right _ (R.sub _ _ _ hv)

end

theorem edit_product {n : Nat} {Z : List Var} {p p' : Product (Cgpm n)}
    (h : Edit (productI (cgpmI n)) (productTab (cgpmI n) (cgpmTab Z n)) p p') :
    Edit (cgpmI (n + 1)) (cgpmTab Z (n + 1)) (.product p : Node (Cgpm n)) (.product p' : Node (Cgpm n)) :=
  ⟨h.reg, h.cell, h.present, h.scored⟩

theorem edit_flexMix {n : Nat} {Z : List Var} {p p' : FlexMix (Cgpm n)}
    (h : Edit (flexMixI (cgpmI n)) (flexMixTab (cgpmI n) (cgpmSem n) Z (cgpmTab Z n)) p p') :
    Edit (cgpmI (n + 1)) (cgpmTab Z (n + 1)) (.flexMix p : Node (Cgpm n)) (.flexMix p' : Node (Cgpm n)) :=
  ⟨h.reg, h.cell, h.present, h.scored⟩

theorem removeLaw (Z : List Var) : (n : Nat) →
    RemoveLaw (cgpmI n) (cgpmSem n) (cgpmTab Z n) (removeCgpm n) (Removable n) (blockOf n)
  | 0 => ⟨fun _ _ _ h => h.elim, fun _ _ _ _ _ _ h => h.elim, fun _ _ _ h => nomatch h⟩
  | n + 1 => by
    have P := productRemoveLaw (cgpmTLaws Z n) (cgpmFrame Z n)
    have R := flexMixRemoveLaw (cgpmLaws n) (cgpmTLaws Z n) (cgpmFrame Z n) (removeLaw Z n)
    refine ⟨fun c o h ho => ?_, fun c b o hc hb hs ho => ?_, fun c o v hv => ?_⟩
    · rcases c with p | p | a | a | m | m
      · exact ho.elim
      · obtain ⟨p', h1, h2, h3⟩ := P.ok p o h ho
        refine ⟨.product p', ?_, edit_product h2, h3⟩
        change (Walk.productRemove (cgpmI n) p o).map _ = _
        rw [h1]; rfl
      · exact ho.elim
      · exact ho.elim
      · exact ho.elim
      · obtain ⟨p', h1, h2, h3⟩ := R.ok m o h ho
        refine ⟨.flexMix p', ?_, edit_flexMix h2, h3⟩
        change (Walk.flexMixRemove (removeCgpm n) m o).map _ = _
        rw [h1]; rfl
    · rcases b with p | p | a | a | m | m <;> first | exact ho.elim | skip
      · rcases c with q | q | a | a | q | q <;> first | exact hc.elim | cases hs | skip
        obtain ⟨a1, a2, a3⟩ := P.alike q p o hc hb hs ho
        refine ⟨a1, a2, fun c' b' hc' hb' => ?_⟩
        obtain ⟨q', hq', rfl⟩ := except_map_ok hc'
        obtain ⟨p', hp', rfl⟩ := except_map_ok hb'
        exact a3 q' p' hq' hp'
      · rcases c with q | q | a | a | q | q <;> first | exact hc.elim | cases hs | skip
        · have hs : Shape.mix q.rowDivide.shape (.array (q.array.cgpms.map (cgpmSem n).shape)) =
            Shape.mix m.rowDivide.shape ((cgpmSem n).shape m.array.base) := hs
          simp only [Shape.mix.injEq] at hs
          exact absurd hs.2.symm
            ((cgpmFrame Z n).flat _ _ (flexMix_base (cgpmLaws n) (cgpmTLaws Z n) hb).1)
        · obtain ⟨a1, a2, a3⟩ := R.alike q m o hc hb hs ho
          refine ⟨a1, a2, fun c' b' hc' hb' => ?_⟩
          obtain ⟨q', hq', rfl⟩ := except_map_ok hc'
          obtain ⟨p', hp', rfl⟩ := except_map_ok hb'
          exact a3 q' p' hq' hp'
    · rcases c with p | p | a | a | m | m
      · cases hv
      · exact P.sub p o v hv
      · cases hv
      · cases hv
      · cases hv
      · exact R.sub m o v hv

end Cgpm2
