import Verif.Lemmas.EditTower

/-!
# Adding columns at any depth, and undoing it (helpers)
-/

namespace Cgpm2
open Spec

variable {S : Type}

/-- How primitives sit among the objects of a class. -/
structure UpLaw (I : Iface S) (M : Sem S) (Z : List Var) (T : Tab S) (up : Prim → S) : Prop where
  reg : ∀ p, (primTab Z).Reg p → T.Reg (up p)
  outs : ∀ p, I.outputs (up p) = p.outputs
  shape : ∀ p, M.shape (up p) = p.shape
  cell : ∀ p r v, T.cell (up p) r v = (primTab Z).cell p r v
  score : ∀ p, I.logpdfScore (up p) = p.logpdfScore

theorem upLaw (Z : List Var) : (n : Nat) → UpLaw (cgpmI n) (cgpmSem n) Z (cgpmTab Z n) (ofPrim n)
  | 0 => ⟨fun _ h => h, fun _ => rfl, fun _ => rfl, fun _ _ _ => rfl, fun _ => rfl⟩
  | _ + 1 => ⟨fun _ h => h, fun _ => rfl, fun _ => rfl, fun _ _ _ => rfl, fun _ => rfl⟩

/-- How adding a column acts on the objects of a class. -/
structure AddLaw (I : Iface S) (M : Sem S) (Z : List Var) (T : Tab S) (rm : S → Var → Except Err S)
    (ad : S → Prim → Except Err S) (Ok : S → Prop) : Prop where
  ok : ∀ c new, T.Reg c → Ok c → (primTab Z).Reg new → (∀ r, (primTab Z).Fresh new r) →
    (∀ v ∈ new.outputs, v ∉ I.outputs c) → ∃ c', ad c new = .ok c' ∧ Edit I T c c' ∧
      I.outputs c' = I.outputs c ++ new.outputs
  alike : ∀ c b new new', T.Reg c → T.Reg b → M.shape c = M.shape b → new.shape = new'.shape →
    Ok b → Ok c ∧ ∀ c' b', ad c new = .ok c' → ad b new' = .ok b' → M.shape c' = M.shape b'
  undo : ∀ c c' new o, T.Reg c → Ok c → (∀ v ∈ new.outputs, v ∉ I.outputs c) → o ∈ new.outputs →
    (primTab Z).Reg new → ad c new = .ok c' → rm c' o = .ok c

section
variable {I : Iface S} {M : Sem S} {Z : List Var} {T : Tab S}

theorem productAdd_of {up : Prim → S} {p p' : Product S} {new : Prim}
    (h : Walk.productAdd I p (up new) = .ok p') : p' = ⟨p.cgpms ++ [up new]⟩ := by
  unfold Walk.productAdd Product.init at h
  rcases hv : Product.validate I (p.cgpms ++ [up new]) with e | u
  · rw [hv] at h; cases h
  · rw [hv] at h; cases h; rfl

theorem productAddLaw (K : TLaws I M Z T) {up : Prim → S} (U : UpLaw I M Z T up) :
    AddLaw (productI I) (productSem I M) Z (productTab I T) (Walk.productRemove I)
      (fun p new => Walk.productAdd I p (up new)) (fun _ => True) where
  ok p new hp _ hn hf hx := by
    obtain ⟨h1, h2⟩ := product_append K hp (U.reg _ hn) (fun r v => by rw [U.cell]; exact hf r v)
      ⟨_, by rw [U.score]; exact Prim.logpdfScore_eq hn.1.1 hn.1.2⟩
      (fun v hv => hx v (by rwa [U.outs] at hv))
    refine ⟨_, h1, h2, ?_⟩
    change (p.cgpms ++ [up new]).flatMap I.outputs = p.cgpms.flatMap I.outputs ++ new.outputs
    rw [List.flatMap_append]
    simp [U.outs]
  alike p q new new' hp hq hs hn _ := by
    refine ⟨trivial, fun p' q' h1 h2 => ?_⟩
    obtain rfl := productAdd_of h1
    obtain rfl := productAdd_of h2
    simp only [productSem, Shape.product.injEq] at hs
    simp [productSem, hs, U.shape, hn]
  undo p p' new o hp _ hx ho hn h := by
    obtain rfl := productAdd_of h
    have e : ((p.cgpms ++ [up new]).filter fun c => decide (o ∉ I.outputs c)) = p.cgpms := by
      rw [List.filter_append, List.filter_eq_self.2, List.filter_cons, if_neg (by simpa [U.outs])]
      · simp
      · intro c hc
        simp only [decide_eq_true_eq]
        exact fun hoc => hx o ho (List.mem_flatMap.2 ⟨c, hc, hoc⟩)
    unfold Walk.productRemove
    dsimp only
    rw [e, if_neg (by simp)]
    exact (product_of_list K hp.1 hp.2.2 (Product.validate_nodup hp.2.1)).1

theorem flexMixAdd_ok {ad : S → Prim → Except Err S} {m : FlexMix S} {new : Prim} {b : S}
    {cs : Dict Val S} {x : Var} (hm : m.rowDivide.outputs = [x]) (hn : new.Good)
    (hb : ad m.array.base new = .ok b)
    (hc : (m.array.cgpms.mapM fun kc => (do
      let c' ← ad kc.2 (primSem.strip new)
      pure (kc.1, c') : Except Err (Val × S))) = .ok cs) :
    Walk.flexMixAdd ad m new =
      .ok { m with array := { m.array with base := b, cgpms := cs } } := by
  unfold Walk.flexMixAdd Walk.flexArrayAdd
  have h1 : primI.clone new = .ok (primSem.strip new) := primLaws.clone _ hn
  rw [hb, h1]
  change ((m.array.cgpms.mapM fun kc => (do
      let c' ← ad kc.2 (primSem.strip new)
      pure (kc.1, c') : Except Err (Val × S))) >>= _) >>= _ = _
  rw [hc]
  simp [bind, Except.bind, pure, Except.pure, FlexMix.init, hm, FlexArray.init]

theorem flexMixAdd_of {ad : S → Prim → Except Err S} {m m' : FlexMix S} {new : Prim} {x : Var}
    (hm : m.rowDivide.outputs = [x]) (hn : new.Good)
    (h : Walk.flexMixAdd ad m new = .ok m') : ∃ b cs,
      m' = { m with array := { m.array with base := b, cgpms := cs } } ∧
      ad m.array.base new = .ok b ∧
      Alike (fun c c' => ad c (primSem.strip new) = .ok c') m.array.cgpms cs := by
  rcases hb : ad m.array.base new with e | b
  · unfold Walk.flexMixAdd Walk.flexArrayAdd at h
    rw [hb] at h; cases h
  rcases hc : (m.array.cgpms.mapM fun kc => (do
      let c' ← ad kc.2 (primSem.strip new)
      pure (kc.1, c') : Except Err (Val × S))) with e | cs
  · unfold Walk.flexMixAdd Walk.flexArrayAdd at h
    have h1 : primI.clone new = .ok (primSem.strip new) := primLaws.clone _ hn
    rw [hb, h1] at h
    change ((m.array.cgpms.mapM fun kc => (do
      let c' ← ad kc.2 (primSem.strip new)
      pure (kc.1, c') : Except Err (Val × S))) >>= _) >>= _ = _ at h
    rw [hc] at h
    cases h
  rw [flexMixAdd_ok hm hn hb hc] at h
  cases h
  exact ⟨b, cs, rfl, rfl, mapM_alike_of (f := fun c => ad c (primSem.strip new)) hc⟩

theorem mapM_undo {f : S → Except Err S} {P : S → S → Prop} {d d' : Dict Val S}
    (h : Alike P d d') (hp : ∀ kc ∈ d, ∀ c', P kc.2 c' → f c' = .ok kc.2) :
    (d'.mapM fun kc => (do
      let c' ← f kc.2
      pure (kc.1, c') : Except Err (Val × S))) = .ok d := by
  induction h with
  | nil => rfl
  | @cons kc kc' d d' h _ ih =>
    rw [List.mapM_cons, ih (fun kc hk => hp kc (by simp [hk])), hp kc (by simp) _ h.2, ← h.1]
    rfl

theorem flexMix_mem {m : FlexMix S} (h : (flexMixTab I M Z T).Reg m) {kc : Val × S}
    (hkc : kc ∈ m.array.cgpms) : T.Reg kc.2 ∧ M.shape kc.2 = M.shape m.array.base := by
  have hg : (flexArr M).get m.array kc.1 = some kc.2 := by
    simp only [flexArr, FlexArray.comp, Dict.get?_of_mem h.inv.2.1.2.2.1 hkc]
    rfl
  refine ⟨(h.comp _ _ hg).1, ?_⟩
  have := (h.inv.2.1.2.1 kc.1).2.2
  simp only [flexArr, Option.some.injEq] at hg
  rwa [hg] at this

theorem flexMixAddLaw (L : Laws I M) (K : TLaws I M Z T) (F : Frame I M T)
    {rm : S → Var → Except Err S} {ad : S → Prim → Except Err S} {Ok : S → Prop}
    (A : AddLaw I M Z T rm ad Ok) :
    AddLaw (flexMixI I) (flexMixSem I M) Z (flexMixTab I M Z T) (Walk.flexMixRemove rm)
      (Walk.flexMixAdd ad) (fun m => Ok m.array.base) where
  ok m new h ho hn hf hx := by
    obtain ⟨b1, b2, b3⟩ := flexMix_base L K h
    have hE := primLaws.strip _ hn.1
    have hs : (primSem.strip new).outputs = new.outputs := (primLaws.outputs_E hE).symm
    have hn' := (primTLaws Z).reg_E _ _ hE hn
    have hf' : ∀ r, (primTab Z).Fresh (primSem.strip new) r := fun r v => by
      rw [← (primTLaws Z).cell_E _ _ hE hn]; exact hf r v
    have hx' : ∀ v ∈ new.outputs, v ∉ I.outputs m.array.base := fun v hv hm =>
      hx v hv (List.mem_append_right _ hm)
    obtain ⟨b, hb1, hb2, hb3⟩ := A.ok _ new b1 ho hn hf hx'
    have hcs : ∀ kc ∈ m.array.cgpms, ∃ c', ad kc.2 (primSem.strip new) = .ok c' ∧
        (Edit I T kc.2 c' ∧ I.outputs c' = I.outputs b ∧ M.shape c' = M.shape b) := by
      intro kc hkc
      obtain ⟨hr, hsh⟩ := flexMix_mem h hkc
      have hou := F.outs _ _ hr b1 hsh
      obtain ⟨a1, a3⟩ := A.alike _ _ (primSem.strip new) new hr b1 hsh (primLaws.shape_E hE).symm ho
      obtain ⟨c', h1, h2, h3⟩ := A.ok _ (primSem.strip new) hr a1 hn' hf' (by
        rw [hs, hou]; exact hx')
      refine ⟨c', h1, h2, ?_, a3 _ _ h1 hb1⟩
      rw [h3, hb3, hs, hou]
    obtain ⟨cs, h1, h2⟩ := mapM_alike (f := fun c => ad c (primSem.strip new)) (d := m.array.cgpms)
      (P := fun c c' => Edit I T c c' ∧ I.outputs c' = I.outputs b ∧ M.shape c' = M.shape b) hcs
    have hxb : m.indexer ∉ I.outputs b := by
      rw [hb3, List.mem_append, not_or]
      refine ⟨h.x_out, fun hm => hx _ hm (List.mem_append_left _ ?_)⟩
      rw [h.out]; simp
    refine ⟨_, flexMixAdd_ok h.out hn.1 hb1 h1, flexMix_edit L K F h hb2 hxb h2, ?_⟩
    change m.rowDivide.outputs ++ I.outputs b =
        (m.rowDivide.outputs ++ I.outputs m.array.base) ++ new.outputs
    rw [hb3, List.append_assoc]
  alike p q new new' hp hq h hn ho := by
    have h : Shape.mix p.rowDivide.shape (M.shape p.array.base) =
      Shape.mix q.rowDivide.shape (M.shape q.array.base) := h
    simp only [Shape.mix.injEq] at h
    obtain ⟨a1, a3⟩ := A.alike _ _ new new' (flexMix_base L K hp).1 (flexMix_base L K hq).1 h.2 hn ho
    have key : ∀ {m m' : FlexMix S} {nw : Prim}, Walk.flexMixAdd ad m nw = .ok m' →
        m'.rowDivide = m.rowDivide ∧ ad m.array.base nw = .ok m'.array.base := by
      intro m m' nw hm
      unfold Walk.flexMixAdd Walk.flexArrayAdd at hm
      rcases hb : ad m.array.base nw with e | b
      · rw [hb] at hm; cases hm
      rw [hb] at hm
      rcases hc : (m.array.cgpms.mapM fun kc => (do
          let c' ← primI.clone nw
          let c' ← ad kc.2 c'
          pure (kc.1, c') : Except Err (Val × S))) with e | cs
      · rw [hc] at hm; cases hm
      rw [hc] at hm
      simp only [bind, Except.bind, pure, Except.pure, FlexMix.init] at hm
      split at hm
      · cases hm
      · next v hv =>
        split at hv
        · cases hv
        · cases hv
          cases hm
          exact ⟨rfl, rfl⟩
    refine ⟨a1, fun p' q' hp' hq' => ?_⟩
    obtain ⟨d1, d2⟩ := key hp'
    obtain ⟨e1, e2⟩ := key hq'
    change Shape.mix p'.rowDivide.shape (M.shape p'.array.base) =
        Shape.mix q'.rowDivide.shape (M.shape q'.array.base)
    rw [d1, e1, h.1, a3 _ _ d2 e2]
  undo m m' new o h ho hx hon hn hm := by
    obtain ⟨b1, b2, b3⟩ := flexMix_base L K h
    have hE := primLaws.strip _ hn.1
    have hs : (primSem.strip new).outputs = new.outputs := (primLaws.outputs_E hE).symm
    have hx' : ∀ v ∈ new.outputs, v ∉ I.outputs m.array.base := fun v hv hm =>
      hx v hv (List.mem_append_right _ hm)
    obtain ⟨b, cs, rfl, h1, h2⟩ := flexMixAdd_of h.out hn.1 hm
    refine flexMixRemove_ok (m := { m with array := { m.array with base := b, cgpms := cs } })
      h.out ?_ (A.undo _ _ _ _ b1 ho hx' hon hn h1)
      (mapM_undo (f := fun c => rm c o) h2 fun kc hkc c' hc' => ?_)
    · rintro rfl
      refine hx _ hon (List.mem_append_left _ ?_)
      rw [h.out]; simp
    · obtain ⟨hr, hsh⟩ := flexMix_mem h hkc
      refine A.undo _ _ _ _ hr (A.alike _ _ new new hr b1 hsh rfl ho).1 ?_ (hs ▸ hon)
        ((primTLaws Z).reg_E _ _ hE hn) hc'
      rw [hs, F.outs _ _ hr b1 hsh]
      exact hx'

end

theorem addLaw (Z : List Var) : (n : Nat) →
    AddLaw (cgpmI n) (cgpmSem n) Z (cgpmTab Z n) (removeCgpm n) (addCgpm n) (Addable n)
  | 0 => ⟨fun _ _ _ h => h.elim, fun _ _ _ _ _ _ _ _ h => h.elim, fun _ _ _ _ _ h => h.elim⟩
  | n + 1 => by
    have P := productAddLaw (cgpmTLaws Z n) (upLaw Z n)
    have R := flexMixAddLaw (cgpmLaws n) (cgpmTLaws Z n) (cgpmFrame Z n) (addLaw Z n)
    refine ⟨fun c new h ho hn hf hx => ?_, fun c b new new' hc hb hs hn ho => ?_,
      fun c c' new o h ho hx hon hn hc' => ?_⟩
    · rcases c with p | p | a | a | m | m <;> first | exact ho.elim | skip
      · obtain ⟨p', h1, h2, h3⟩ := P.ok p new h trivial hn hf hx
        refine ⟨.product p', ?_, edit_product h2, h3⟩
        change (Walk.productAdd (cgpmI n) p (ofPrim n new)).map _ = _
        rw [h1]; rfl
      · obtain ⟨p', h1, h2, h3⟩ := R.ok m new h ho hn hf hx
        refine ⟨.flexMix p', ?_, edit_flexMix h2, h3⟩
        change (Walk.flexMixAdd (addCgpm n) m new).map _ = _
        rw [h1]; rfl
    · rcases b with p | p | a | a | m | m <;> first | exact ho.elim | skip
      · rcases c with q | q | a | a | q | q <;> first | exact hc.elim | cases hs | skip
        obtain ⟨a1, a3⟩ := P.alike q p new new' hc hb hs hn trivial
        refine ⟨a1, fun c' b' hc' hb' => ?_⟩
        obtain ⟨q', hq', rfl⟩ := except_map_ok hc'
        obtain ⟨p', hp', rfl⟩ := except_map_ok hb'
        exact a3 q' p' hq' hp'
      · rcases c with q | q | a | a | q | q <;> first | exact hc.elim | cases hs | skip
        · have hs : Shape.mix q.rowDivide.shape (.array (q.array.cgpms.map (cgpmSem n).shape)) =
            Shape.mix m.rowDivide.shape ((cgpmSem n).shape m.array.base) := hs
          simp only [Shape.mix.injEq] at hs
          exact absurd hs.2.symm
            ((cgpmFrame Z n).flat _ _ (flexMix_base (cgpmLaws n) (cgpmTLaws Z n) hb).1)
        · obtain ⟨a1, a3⟩ := R.alike q m new new' hc hb hs hn ho
          refine ⟨a1, fun c' b' hc' hb' => ?_⟩
          obtain ⟨q', hq', rfl⟩ := except_map_ok hc'
          obtain ⟨p', hp', rfl⟩ := except_map_ok hb'
          exact a3 q' p' hq' hp'
    · rcases c with p | p | a | a | m | m <;> first | exact ho.elim | skip
      · obtain ⟨p', h1, rfl⟩ := except_map_ok hc'
        change (Walk.productRemove (cgpmI n) p' o).map _ = _
        rw [P.undo p p' new o h trivial hx hon hn h1]
        rfl
      · obtain ⟨p', h1, rfl⟩ := except_map_ok hc'
        change (Walk.flexMixRemove (removeCgpm n) p' o).map _ = _
        rw [R.undo m p' new o h ho hx hon hn h1]
        rfl

end Cgpm2
