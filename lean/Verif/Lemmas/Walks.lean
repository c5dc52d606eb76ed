import Verif.Lemmas.HeldCells
import Verif.Spec.Walks

/-!
# Walks find the primitives of a column (helpers)
-/

namespace Cgpm2
open Spec

/-- The primitives of a column. -/
def colOf (o : Var) (l : List Prim) : List Prim := l.filter fun p => decide (p.outputs = [o])

theorem colOf_append (o : Var) (a b : List Prim) : colOf o (a ++ b) = colOf o a ++ colOf o b :=
  List.filter_append ..

theorem fill_append (o : Var) (l a b : List Prim) :
    fill o l (a ++ b) = fill o (l.take (colOf o a).length) a ++ fill o (l.drop (colOf o a).length) b := by
  induction a generalizing l with
  | nil => simp [fill, colOf]
  | cons p a ih =>
    by_cases h : p.outputs = [o]
    · have hc : (colOf o (p :: a)).length = (colOf o a).length + 1 := by simp [colOf, h]
      cases l with
      | nil => simp only [List.cons_append, fill, h, if_true, hc, ih, List.tail_nil, List.take_nil, List.drop_nil]
      | cons q l =>
        simp only [List.cons_append, fill, h, if_true, hc, ih, List.tail_cons, List.take_succ_cons,
          List.drop_succ_cons, List.headD_cons]
    · have hc : colOf o (p :: a) = colOf o a := by simp [colOf, h]
      simp only [List.cons_append, fill, h, if_false, hc, ih]

theorem fill_none {o : Var} {a : List Prim} (l : List Prim) (h : ∀ p ∈ a, p.outputs ≠ [o]) :
    fill o l a = a := by
  induction a generalizing l with
  | nil => rfl
  | cons p a ih =>
    simp only [fill, h p (by simp), if_false, ih l fun q hq => h q (by simp [hq])]

theorem colOf_none {o : Var} {a : List Prim} (h : ∀ p ∈ a, p.outputs ≠ [o]) : colOf o a = [] := by
  simp only [colOf, List.filter_eq_nil_iff, decide_eq_true_eq]
  exact h

section
variable {S : Type}

/-- The references found for a column are the primitives of the column and writing to them
changes just those. -/
structure Found (prims : S → List Prim) (c : S) (o : Var) (r : Refs S) : Prop where
  objs : r.objs = colOf o (prims c)
  same : r.put r.objs = c
  fill : ∀ l, l.length = r.objs.length → prims (r.put l) = fill o l (prims c)

/-- What holds of a class whose walks work. -/
structure WalkLaws (I : Iface S) (w : S → Var → Except Err (Refs S)) (prims : S → List Prim)
    (c : S) : Prop where
  sub : ∀ p ∈ prims c, ∃ v ∈ I.outputs c, p.outputs = [v]
  walk : ∀ o ∈ I.outputs c, ∃ r, w c o = .ok r ∧ Found prims c o r

theorem WalkLaws.none {I : Iface S} {w : S → Var → Except Err (Refs S)} {prims : S → List Prim}
    {c : S} (h : WalkLaws I w prims c) {o : Var} (ho : o ∉ I.outputs c) :
    ∀ p ∈ prims c, p.outputs ≠ [o] := by
  intro p hp he
  obtain ⟨v, hv, h1⟩ := h.sub p hp
  rw [h1] at he
  cases he
  exact ho hv

theorem Found.map {prims : S → List Prim} {c : S} {o : Var} {r : Refs S} (h : Found prims c o r)
    {S' : Type} {prims' : S' → List Prim} (f : S → S') (a b : List Prim)
    (hp : ∀ l, l.length = r.objs.length → prims' (f (r.put l)) = a ++ prims (r.put l) ++ b)
    (ha : ∀ p ∈ a, p.outputs ≠ [o]) (hb : ∀ p ∈ b, p.outputs ≠ [o]) :
    Found prims' (f c) o (r.map f) := by
  have hc : prims' (f c) = a ++ prims c ++ b := by
    have := hp r.objs rfl
    rwa [h.same] at this
  constructor
  · rw [hc, colOf_append, colOf_append, colOf_none ha, colOf_none hb, List.nil_append,
      List.append_nil]
    exact h.objs
  · exact congrArg f h.same
  · intro l hl
    change prims' (f (r.put l)) = _
    change l.length = r.objs.length at hl
    rw [hp l hl, hc, fill_append, fill_append, colOf_none ha, h.fill l hl, fill_none _ ha, fill_none _ hb,
      List.length_nil, List.drop_zero, List.append_assoc, List.append_assoc, colOf_append,
      colOf_none ha, List.nil_append, ← h.objs, ← hl]
    simp

theorem gather_found {prims : S → List Prim} {o : Var} {w : S → Var → Except Err (Refs S)}
    {cs : List S} (h : ∀ c ∈ cs, ∃ r, w c o = .ok r ∧ Found prims c o r) :
    ∃ rs, (cs.mapM fun c => w c o) = .ok rs ∧
      Found (fun l : List S => l.flatMap prims) cs o (Refs.gather rs) ∧
      ∀ l, ((Refs.gather rs).put l).length = cs.length := by
  induction cs with
  | nil => exact ⟨[], rfl, ⟨rfl, rfl, fun _ _ => rfl⟩, fun _ => rfl⟩
  | cons c cs ih =>
    obtain ⟨r, h1, h2⟩ := h c (by simp)
    obtain ⟨rs, h3, h4, h5⟩ := ih fun c' hc => h c' (by simp [hc])
    refine ⟨r :: rs, ?_, ⟨?_, ?_, ?_⟩, ?_⟩
    · rw [List.mapM_cons, h1, h3]; rfl
    · change r.objs ++ (Refs.gather rs).objs = _
      rw [List.flatMap_cons, colOf_append, h2.objs, h4.objs]
    · change r.put _ :: (Refs.gather rs).put _ = _
      have e1 : (Refs.gather (r :: rs)).objs = r.objs ++ (Refs.gather rs).objs := rfl
      rw [e1, List.take_left, List.drop_left, h2.same, h4.same]
    · intro l hl
      change l.length = (r.objs ++ (Refs.gather rs).objs).length at hl
      rw [List.length_append] at hl
      change (r.put _ :: (Refs.gather rs).put _).flatMap prims = _
      have e2 := h4.fill (l.drop r.objs.length) (by rw [List.length_drop]; omega)
      rw [List.flatMap_cons, List.flatMap_cons, fill_append, ← h2.objs,
        h2.fill _ (by rw [List.length_take]; omega), e2]
    · intro l
      change (r.put _ :: (Refs.gather rs).put _).length = _
      rw [List.length_cons, List.length_cons, h5]

theorem primWalk_found {p : Prim} {o : Var} : Found (fun p => [p]) p o (primWalk p o) := by
  by_cases h : p.outputs = [o]
  · have e : primWalk p o = ⟨[p], fun l => l.headD p⟩ := by simp [primWalk, h]
    rw [e]
    refine ⟨by simp [colOf, h], rfl, fun l hl => ?_⟩
    simp only [fill, h, if_true]
  · have e : primWalk p o = ⟨[], fun _ => p⟩ := by simp [primWalk, h]
    rw [e]
    refine ⟨by simp [colOf, h], rfl, fun l hl => ?_⟩
    simp only [fill, h, if_false]

theorem primWalk_laws {p : Prim} (h : p.Inv) :
    WalkLaws primI (fun p o => .ok (primWalk p o)) (fun p => [p]) p := by
  obtain ⟨v, hv⟩ := h.out
  refine ⟨fun q hq => ?_, fun o _ => ⟨_, rfl, primWalk_found⟩⟩
  rw [List.mem_singleton.1 hq]
  exact ⟨v, by rw [show primI.outputs p = p.outputs from rfl, hv]; simp, hv⟩

variable {I : Iface S} {w : S → Var → Except Err (Refs S)} {prims : S → List Prim}

theorem filter_zipIdx {l1 l2 : List S} {c : S} (P : S → Prop) [DecidablePred P]
    (h1 : ∀ d ∈ l1, ¬ P d) (h2 : ∀ d ∈ l2, ¬ P d) (h : P c) :
    ((l1 ++ c :: l2).zipIdx.filter fun ci => decide (P ci.1)) = [(c, l1.length)] := by
  rw [List.zipIdx_append, List.filter_append, List.zipIdx_cons, List.filter_cons]
  have e1 : ∀ (l : List S) (k : Nat), (∀ d ∈ l, ¬ P d) →
      (l.zipIdx k).filter (fun ci => decide (P ci.1)) = [] := by
    intro l k hl
    rw [List.filter_eq_nil_iff]
    rintro ⟨d, i⟩ hd
    simpa using hl d (List.fst_mem_of_mem_zipIdx hd)
  rw [e1 l1 0 h1, e1 l2 _ h2]
  simp [h]

theorem product_laws {p : Product S} (hv : Product.validate I p.cgpms = .ok ())
    (h : ∀ c ∈ p.cgpms, WalkLaws I w prims c) :
    WalkLaws (productI I) (Walk.product I w) (fun p => p.cgpms.flatMap prims) p := by
  have hn := Product.validate_nodup hv
  refine ⟨fun q hq => ?_, fun o ho => ?_⟩
  · obtain ⟨c, hc, hq⟩ := List.mem_flatMap.1 hq
    obtain ⟨v, hv, h1⟩ := (h c hc).sub q hq
    exact ⟨v, List.mem_flatMap.2 ⟨c, hc, hv⟩, h1⟩
  · obtain ⟨c, hc, hoc⟩ := List.mem_flatMap.1 ho
    obtain ⟨l1, l2, he⟩ := List.append_of_mem hc
    rw [he, List.flatMap_append, List.flatMap_cons] at hn
    have hd1 : ∀ d ∈ l1, o ∉ I.outputs d := fun d hd hod =>
      (List.nodup_append.1 hn).2.2 o (List.mem_flatMap.2 ⟨d, hd, hod⟩) o (by simp [hoc]) rfl
    have hd2 : ∀ d ∈ l2, o ∉ I.outputs d := fun d hd hod =>
      (List.nodup_append.1 (List.nodup_append.1 hn).2.1).2.2 o hoc o
        (List.mem_flatMap.2 ⟨d, hd, hod⟩) rfl
    obtain ⟨r, h1, h2⟩ := (h c hc).walk o hoc
    have hf := filter_zipIdx (fun d => o ∈ I.outputs d) hd1 hd2 hoc
    refine ⟨r.map fun c' => ⟨p.cgpms.set l1.length c'⟩, ?_, ?_⟩
    · unfold Walk.product
      rw [he, hf]
      simp only [h1]
      rfl
    · have := h2.map (prims' := fun p : Product S => p.cgpms.flatMap prims)
        (fun c' => (⟨p.cgpms.set l1.length c'⟩ : Product S)) (l1.flatMap prims) (l2.flatMap prims)
        (fun l hl => by simp [he, List.flatMap_append])
        (fun q hq => by
          obtain ⟨d, hd, hq⟩ := List.mem_flatMap.1 hq
          exact (h d (by simp [he, hd])).none (hd1 d hd) q hq)
        (fun q hq => by
          obtain ⟨d, hd, hq⟩ := List.mem_flatMap.1 hq
          exact (h d (by simp [he, hd])).none (hd2 d hd) q hq)
      have e : (⟨p.cgpms.set l1.length c⟩ : Product S) = p := by
        cases p; simp only at he ⊢; simp [he]
      simp only [e] at this
      exact this

theorem finArray_laws {a : FinArray S} (h : ∀ c ∈ a.cgpms, WalkLaws I w prims c)
    (ho : ∀ c ∈ a.cgpms, I.outputs c = a.outputs I) :
    WalkLaws (finArrayI I) (Walk.finArray w) (fun a => a.cgpms.flatMap prims) a := by
  refine ⟨fun q hq => ?_, fun o hoo => ?_⟩
  · obtain ⟨c, hc, hq⟩ := List.mem_flatMap.1 hq
    obtain ⟨v, hv, h1⟩ := (h c hc).sub q hq
    exact ⟨v, by change v ∈ a.outputs I; rw [← ho c hc]; exact hv, h1⟩
  · obtain ⟨rs, h1, h2, -⟩ := gather_found (w := w) (prims := prims) (o := o) (cs := a.cgpms)
      fun c hc => (h c hc).walk o (by rw [ho c hc]; exact hoo)
    refine ⟨_, ?_, h2.map (fun l => { a with cgpms := l }) [] [] (fun l _ => by simp) (by simp) (by simp)⟩
    unfold Walk.finArray
    rw [h1]; rfl

theorem zip_keys_values {K V : Type} (d : Dict K V) : (Dict.keys d).zip (Dict.values d) = d := by
  induction d with
  | nil => rfl
  | cons kv d ih =>
    change (kv.1 :: Dict.keys d).zip (kv.2 :: Dict.values d) = _
    rw [List.zip_cons_cons, ih]

theorem values_zip {K V : Type} {ks : List K} {vs : List V} (h : vs.length = ks.length) :
    Dict.values (ks.zip vs) = vs := by
  unfold Dict.values
  exact List.map_snd_zip (by omega)

theorem flexArray_laws {a : FlexArray S} (h : ∀ c ∈ Dict.values a.cgpms, WalkLaws I w prims c)
    (hb : WalkLaws I w prims a.base) (ho : ∀ c ∈ Dict.values a.cgpms, I.outputs c = I.outputs a.base) :
    WalkLaws (flexArrayI I) (Walk.flexArray w)
      (fun a => (Dict.values a.cgpms).flatMap prims ++ prims a.base) a := by
  refine ⟨fun q hq => ?_, fun o hoo => ?_⟩
  · rcases List.mem_append.1 hq with hq | hq
    · obtain ⟨c, hc, hq⟩ := List.mem_flatMap.1 hq
      obtain ⟨v, hv, h1⟩ := (h c hc).sub q hq
      exact ⟨v, by change v ∈ I.outputs a.base; rw [← ho c hc]; exact hv, h1⟩
    · exact hb.sub q hq
  · obtain ⟨rs, h1, h2, h3⟩ := gather_found (w := w) (prims := prims) (o := o)
      (cs := Dict.values a.cgpms) fun c hc => (h c hc).walk o (by rw [ho c hc]; exact hoo)
    obtain ⟨rb, h4, h5⟩ := hb.walk o hoo
    have hk : (Dict.values a.cgpms).length = (Dict.keys a.cgpms).length := by
      simp [Dict.values, Dict.keys]
    refine ⟨⟨(Refs.gather rs).objs ++ rb.objs, fun l =>
      { a with
        cgpms := (Dict.keys a.cgpms).zip
          ((Refs.gather rs).put (l.take (Refs.gather rs).objs.length))
        base := rb.put (l.drop (Refs.gather rs).objs.length) }⟩, ?_, ⟨?_, ?_, ?_⟩⟩
    · unfold Walk.flexArray
      rw [h1]
      simp only [bind, Except.bind, h4, pure, Except.pure]
    · rw [colOf_append]
      simp only [h2.objs, h5.objs]
    · simp only [List.take_left, List.drop_left, h2.same, h5.same, zip_keys_values]
    · intro l hl
      simp only [List.length_append] at hl
      simp only
      rw [values_zip (by rw [h3, hk]), fill_append]
      have e2 := h2.fill (l.take (Refs.gather rs).objs.length) (by rw [List.length_take]; omega)
      have e3 : (Refs.gather rs).objs.length = (colOf o ((Dict.values a.cgpms).flatMap prims)).length := by
        rw [h2.objs]
      rw [e2, h5.fill _ (by rw [List.length_drop]; omega), e3]

theorem rowMix_laws {A : Type} {AI MI : Iface _} {wA : A → Var → Except Err (Refs A)}
    {primsA : A → List Prim} {m : RowMix A} (hd : m.rowDivide.Inv) (h : WalkLaws AI wA primsA m.array)
    (hx : ∀ v ∈ m.rowDivide.outputs, v ∉ AI.outputs m.array)
    (hM : MI.outputs m = m.rowDivide.outputs ++ AI.outputs m.array) :
    WalkLaws MI (Walk.rowMix wA) (fun m => m.rowDivide :: primsA m.array) m := by
  obtain ⟨x, hxe⟩ := hd.out
  refine ⟨fun q hq => ?_, fun o ho => ?_⟩
  · rw [hM]
    rcases List.mem_cons.1 hq with rfl | hq
    · exact ⟨x, by simp [hxe], hxe⟩
    · obtain ⟨v, hv, h1⟩ := h.sub q hq
      exact ⟨v, by simp [hv], h1⟩
  · rw [hM] at ho
    by_cases hod : o ∈ m.rowDivide.outputs
    · refine ⟨(primWalk m.rowDivide o).map fun d => { m with rowDivide := d }, by simp [Walk.rowMix, hod], ?_⟩
      exact (primWalk_found (p := m.rowDivide) (o := o)).map
        (prims' := fun m : RowMix A => m.rowDivide :: primsA m.array)
        (fun d => ({ m with rowDivide := d } : RowMix A)) [] (primsA m.array)
        (fun l _ => rfl) (by simp) (h.none (hx o hod))
    · obtain ⟨r, h1, h2⟩ := h.walk o ((List.mem_append.1 ho).resolve_left hod)
      refine ⟨r.map fun a => { m with array := a }, ?_, ?_⟩
      · simp only [Walk.rowMix, if_neg hod, h1]; rfl
      · exact h2.map (prims' := fun m : RowMix A => m.rowDivide :: primsA m.array)
          (fun a => ({ m with array := a } : RowMix A)) [m.rowDivide] []
          (fun l _ => by simp)
          (by
            intro p hp he
            rw [List.mem_singleton.1 hp] at he
            exact hod (by simp [he]))
          (by simp)

/-- An unused key of a flexible array. -/
theorem exists_unused {V : Type} (d : Dict Val V) : ∃ k : Val, Dict.get? d k = none := by
  have hinj : Function.Injective fun n : Nat => (Val.num (n : ℚ)) := by
    intro a b h
    simpa using h
  obtain ⟨k, hk⟩ := (Set.infinite_range_of_injective hinj).exists_notMem_finset (Dict.keys d).toFinset
  exact ⟨k, (Dict.get?_eq_none_iff _ _).2 (by simpa using hk.2)⟩

end

theorem mixReg_base {S : Type} {I : Iface S} {M : Sem S} {Z : List Var} {T : Tab S} (L : Laws I M)
    (K : TLaws I M Z T) {m : FlexMix S} (h : (flexMixTab I M Z T).Reg m) : T.Reg m.array.base := by
  obtain ⟨k, hk⟩ := exists_unused m.array.cgpms
  have h1 := (h.comp k _ rfl).1
  rw [FlexArray.comp, hk] at h1
  have hb : M.Inv m.array.base := h.inv.2.1.1.1
  exact K.reg_E _ _ (L.symm _ _ (L.strip _ hb)) h1

theorem mixReg_mem {S : Type} {I : Iface S} {M : Sem S} {Z : List Var} {T : Tab S}
    {m : FlexMix S} (h : (flexMixTab I M Z T).Reg m) {c : S} (hc : c ∈ Dict.values m.array.cgpms) :
    T.Reg c ∧ I.outputs c = I.outputs m.array.base := by
  obtain ⟨⟨k, c'⟩, hk, rfl⟩ := List.mem_map.1 hc
  have h1 := h.comp k _ rfl
  rw [FlexArray.comp, Dict.get?_of_mem h.inv.2.1.2.2.1 hk] at h1
  exact h1

theorem mixReg_fin_mem {S : Type} {I : Iface S} {M : Sem S} {Z : List Var} {T : Tab S}
    {m : FinMix S} (h : (finMixTab I M Z T).Reg m) {c : S} (hc : c ∈ m.array.cgpms) :
    T.Reg c ∧ I.outputs c = m.array.outputs I := by
  obtain ⟨j, hj, rfl⟩ := List.getElem_of_mem hc
  exact h.comp (.num ((j : Nat) : ℚ)) _ (by
    simp only [finArr, natIndex_nat, Option.bind_some, List.getElem?_eq_getElem hj])

theorem mixReg_x {A S : Type} {AI : Iface A} {I : Iface S} {MA : Sem A} {X : Prim → Nat → Prop}
    {R : Arr A S} {Z : List Var} {T : Tab S} {m : RowMix A} (h : MixReg AI I MA X R Z T m) :
    m.rowDivide.Inv ∧ ∀ v ∈ m.rowDivide.outputs, v ∉ AI.outputs m.array := by
  have hd : m.rowDivide.Inv := h.inv.1.1
  obtain ⟨x, hx⟩ := hd.out
  refine ⟨hd, fun v hv => ?_⟩
  have := h.x_out
  rw [RowMix.indexer, hx] at this
  rw [hx] at hv
  rw [List.mem_singleton.1 hv]
  exact this

theorem node_laws {S : Type} {I : Iface S} {M : Sem S} {Z : List Var} {T : Tab S} (L : Laws I M)
    (K : TLaws I M Z T) {w : S → Var → Except Err (Refs S)} {prims : S → List Prim}
    {primsN : Node S → List Prim}
    (e1 : ∀ p, primsN (.prim p) = [p]) (e2 : ∀ p, primsN (.product p) = p.cgpms.flatMap prims)
    (e5 : ∀ m, primsN (.finMix m) = m.rowDivide :: m.array.cgpms.flatMap prims)
    (e6 : ∀ m, primsN (.flexMix m) =
      m.rowDivide :: ((Dict.values m.array.cgpms).flatMap prims ++ prims m.array.base))
    (h : ∀ c, T.Reg c → WalkLaws I w prims c) (c : Node S) (hc : (nodeTab I M Z T).Reg c) :
    WalkLaws (nodeI I) (Walk.node I w) primsN c := by
  have lift : ∀ {S' : Type} {I' : Iface S'} {w' : S' → Var → Except Err (Refs S')}
      {prims' : S' → List Prim} (f : S' → Node S) (s : S') (_ : WalkLaws I' w' prims' s)
      (_ : (nodeI I).outputs (f s) = I'.outputs s) (_ : ∀ s, primsN (f s) = prims' s)
      (_ : ∀ o, Walk.node I w (f s) o = (w' s o).map (Refs.map f)),
      WalkLaws (nodeI I) (Walk.node I w) primsN (f s) := by
    intro S' I' w' prims' f s h1 h2 h3 h4
    refine ⟨fun q hq => ?_, fun o ho => ?_⟩
    · rw [h3] at hq; rw [h2]; exact h1.sub q hq
    · obtain ⟨r, h5, h6⟩ := h1.walk o (h2 ▸ ho)
      refine ⟨r.map f, by rw [h4, h5]; rfl, ?_⟩
      exact h6.map f [] [] (fun l _ => by rw [h3]; simp) (by simp) (by simp)
  cases c with
  | prim p => exact lift .prim p (primWalk_laws hc.1.1) rfl e1 fun _ => rfl
  | product p =>
    exact lift .product p (product_laws hc.2.1 fun c hcm => h c (hc.1 c hcm)) rfl e2 fun _ => rfl
  | finArray a => exact hc.elim
  | flexArray a => exact hc.elim
  | finMix m =>
    have hr : (finMixTab I M Z T).Reg m := hc
    refine lift .finMix m (I' := finMixI I) (rowMix_laws (AI := finArrayI I) (mixReg_x hr).1
      (finArray_laws (fun c hcm => h c (mixReg_fin_mem hr hcm).1) fun c hcm => (mixReg_fin_mem hr hcm).2)
      (mixReg_x hr).2 rfl) rfl e5 fun _ => rfl
  | flexMix m =>
    have hr : (flexMixTab I M Z T).Reg m := hc
    refine lift .flexMix m (I' := flexMixI I) (rowMix_laws (AI := flexArrayI I) (mixReg_x hr).1
      (flexArray_laws (fun c hcm => h c (mixReg_mem hr hcm).1) (h _ (mixReg_base L K hr))
        fun c hcm => (mixReg_mem hr hcm).2)
      (mixReg_x hr).2 rfl) rfl e6 fun _ => rfl

theorem cgpm_walk (Z : List Var) : (n : Nat) → ∀ c : Cgpm n, (cgpmTab Z n).Reg c →
    WalkLaws (cgpmI n) (cgpmsByOutput n) (primsIn n) c
  | 0, _, h => primWalk_laws h.1.1
  | n + 1, c, h => node_laws (cgpmLaws n) (cgpmTLaws Z n) (fun _ => rfl) (fun _ => rfl)
      (fun _ => rfl) (fun _ => rfl) (cgpm_walk Z n) c h

/-- Every output has a primitive. -/
theorem node_covers {S : Type} {I : Iface S} {M : Sem S} {Z : List Var} {T : Tab S} (L : Laws I M)
    (K : TLaws I M Z T) {prims : S → List Prim} {primsN : Node S → List Prim}
    (e1 : ∀ p, primsN (.prim p) = [p]) (e2 : ∀ p, primsN (.product p) = p.cgpms.flatMap prims)
    (e5 : ∀ m, primsN (.finMix m) = m.rowDivide :: m.array.cgpms.flatMap prims)
    (e6 : ∀ m, primsN (.flexMix m) =
      m.rowDivide :: ((Dict.values m.array.cgpms).flatMap prims ++ prims m.array.base))
    (h : ∀ c, T.Reg c → ∀ o ∈ I.outputs c, ∃ p ∈ prims c, p.outputs = [o]) (c : Node S)
    (hc : (nodeTab I M Z T).Reg c) : ∀ o ∈ (nodeI I).outputs c, ∃ p ∈ primsN c, p.outputs = [o] := by
  have hprim : ∀ p : Prim, p.Inv → ∀ o ∈ p.outputs, p.outputs = [o] := by
    intro p hp o ho
    obtain ⟨v, hv⟩ := hp.out
    rw [hv] at ho ⊢
    rw [List.mem_singleton.1 ho]
  intro o ho
  cases c with
  | prim p => exact ⟨p, by simp [e1], hprim p hc.1.1 o ho⟩
  | product p =>
    obtain ⟨d, hd, hod⟩ := List.mem_flatMap.1 ho
    obtain ⟨q, hq, h1⟩ := h d (hc.1 d hd) o hod
    exact ⟨q, by rw [e2]; exact List.mem_flatMap.2 ⟨d, hd, hq⟩, h1⟩
  | finArray a => exact hc.elim
  | flexArray a => exact hc.elim
  | finMix m =>
    have hr : (finMixTab I M Z T).Reg m := hc
    rw [e5]
    rcases List.mem_append.1 ho with ho | ho
    · exact ⟨m.rowDivide, by simp, hprim _ (mixReg_x hr).1 o ho⟩
    · have ho' : o ∈ m.array.outputs I := ho
      rcases hm : m.array.cgpms with _ | ⟨d, ds⟩
      · rw [FinArray.outputs, hm] at ho'
        cases ho'
      · have hd : d ∈ m.array.cgpms := by rw [hm]; simp
        obtain ⟨q, hq, h1⟩ := h d (mixReg_fin_mem hr hd).1 o (by
          rw [(mixReg_fin_mem hr hd).2]; exact ho')
        exact ⟨q, by simp [hq], h1⟩
  | flexMix m =>
    have hr : (flexMixTab I M Z T).Reg m := hc
    rw [e6]
    rcases List.mem_append.1 ho with ho | ho
    · exact ⟨m.rowDivide, by simp, hprim _ (mixReg_x hr).1 o ho⟩
    · obtain ⟨q, hq, h1⟩ := h _ (mixReg_base L K hr) o ho
      exact ⟨q, by simp [hq], h1⟩

theorem cgpm_covers (Z : List Var) : (n : Nat) → ∀ c : Cgpm n, (cgpmTab Z n).Reg c →
    ∀ o ∈ (cgpmI n).outputs c, ∃ p ∈ primsIn n c, p.outputs = [o]
  | 0, p, h => fun o ho => by
    obtain ⟨v, hv⟩ := Prim.Inv.out h.1.1
    have ho' : o ∈ Prim.outputs p := ho
    rw [hv] at ho'
    rw [List.mem_singleton.1 ho']
    exact ⟨p, List.mem_singleton.2 rfl, hv⟩
  | n + 1, c, h => node_covers (cgpmLaws n) (cgpmTLaws Z n) (fun _ => rfl) (fun _ => rfl)
      (fun _ => rfl) (fun _ => rfl) (cgpm_covers Z n) c h

end Cgpm2
