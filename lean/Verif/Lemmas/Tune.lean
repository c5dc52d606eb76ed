import Verif.Lemmas.Hypers
import Verif.Lemmas.Walks
import Verif.Lemmas.Edit

/-!
# New hyperparameters keep the table (helpers)
-/

namespace Cgpm2
open Spec

/-! ### What the functions of src/transition_hypers.py do to the objects they are given -/

/-- Equal but for hyperparameters, and well-formed if it was. -/
def Retuned (p q : Prim) : Prop := SameButHypers p q ∧ (p.Good → q.Good)

theorem Retuned.refl (p : Prim) : Retuned p p := ⟨SameButHypers.refl p, id⟩

theorem Retuned.trans {p q r : Prim} (h1 : Retuned p q) (h2 : Retuned q r) : Retuned p r :=
  ⟨h1.1.trans h2.1, h2.2 ∘ h1.2⟩

theorem setHypers_retuned (p : Prim) (h : Dict String ℝ) : Retuned p (p.setHypers h).2 :=
  ⟨Prim.setHypers_same p h, fun hp => Prim.withHypers_good hp h⟩

/-- Retuned, object by object. -/
def RetunedList (ps qs : List Prim) : Prop := List.Forall₂ Retuned ps qs

theorem RetunedList.refl (ps : List Prim) : RetunedList ps ps :=
  List.forall₂_same.2 fun x _ => Retuned.refl x

theorem RetunedList.trans {ps qs rs : List Prim} (h1 : RetunedList ps qs) (h2 : RetunedList qs rs) :
    RetunedList ps rs := forall₂_trans (R := Retuned) (fun a b => a.trans b) h1 h2

theorem setAndScore_retuned (p : Prim) (h : Dict String ℝ) (g : Rng) :
    Retuned p (setAndScore h (p, g)).2.1 := by
  have := setHypers_retuned p h
  simp only [setAndScore, Py.bind_apply, Py.onFst]
  rcases e : p.setHypers h with ⟨_ | _, q⟩ <;> rw [e] at this
  · exact this
  · exact this

theorem scores_retuned {α : Type} (prop : α → Dict String ℝ) (l : List α) (ps : List Prim) (g : Rng) :
    RetunedList ps (Py.mapL (fun a => do
        let scores ← Py.each (setAndScore (prop a))
        pure (Fl.sum scores)) l (ps, g)).2.1 := by
  apply Py.mapL_invariant (P := fun st : List Prim × Rng => RetunedList ps st.1) _ l (ps, g)
    (RetunedList.refl ps)
  intro a st h
  rw [Py.bind_apply]
  have : RetunedList st.1 (Py.each (setAndScore (prop a)) (st.1, st.2)).2.1 :=
    each_forall₂ Retuned.refl (fun p g => setAndScore_retuned p (prop a) g) st.1 st.2
  rcases e : Py.each (setAndScore (prop a)) st with ⟨_ | s, st'⟩ <;>
    (rw [show (st.1, st.2) = st from rfl, e] at this; exact h.trans this)

theorem transitionHyper_retuned (grids : Dict String (List ℝ)) (h : Dict String ℝ) (n : String)
    (ps : List Prim) (g : Rng) : RetunedList ps (transitionHyper grids h n (ps, g)).2.1 := by
  unfold transitionHyper
  rw [Py.lift_bind]
  cases Dict.getItem grids n with
  | error e => exact RetunedList.refl ps
  | ok grid =>
    dsimp only
    rw [Py.bind_apply]
    have := scores_retuned (fun v => Dict.set h n v) grid ps g
    rcases e : Py.mapL (fun gridValue => do
      let scores ← Py.each (setAndScore (Dict.set h n gridValue))
      pure (Fl.sum scores)) grid (ps, g) with ⟨_ | logps, st⟩ <;> rw [e] at this
    · exact this
    · dsimp only
      rw [Py.bind_apply]
      simp only [Py.onSnd]
      rcases logPflipIdx logps st.2 with ⟨_ | i, g'⟩
      · exact this
      · dsimp only
        rcases grid[i]? with _ | v
        · exact this
        · exact this

theorem transitionHypersLoop_retuned (grids : Dict String (List ℝ)) :
    ∀ (ns : List String) (h : Dict String ℝ) (ps : List Prim) (g : Rng),
      RetunedList ps (transitionHypersLoop grids ns h (ps, g)).2.1 := by
  intro ns
  induction ns with
  | nil => intro h ps g; exact RetunedList.refl ps
  | cons n ns ih =>
    intro h ps g
    unfold transitionHypersLoop
    rw [Py.bind_apply]
    have := transitionHyper_retuned grids h n ps g
    rcases e : transitionHyper grids h n (ps, g) with ⟨_ | h', st⟩ <;> rw [e] at this
    · exact this
    · exact this.trans (ih h' st.1 st.2)

theorem transitionHypers_retuned (grids : Dict String (List ℝ)) (ps : List Prim) (g : Rng) :
    RetunedList ps (transitionHypers grids (ps, g)).2.1 := by
  unfold transitionHypers
  rw [Py.get_bind]
  dsimp only
  by_cases hc : sameClass ps
  swap
  · rw [Py.assert_bind_neg hc]; exact RetunedList.refl ps
  · rw [Py.assert_bind_pos hc]
    · cases ps with
      | nil => exact RetunedList.refl []
      | cons p ps =>
        dsimp only
        rw [Py.bind_apply]
        simp only [Py.onSnd]
        obtain ⟨l', g', e, _⟩ := permutation_ok (Dict.keys p.getHypers) g
        rw [e]
        dsimp only
        rw [Py.bind_apply]
        have h1 := transitionHypersLoop_retuned grids l' p.getHypers (p :: ps) g'
        rcases e1 : transitionHypersLoop grids l' p.getHypers (p :: ps, g') with ⟨_ | h', st⟩ <;>
          rw [e1] at h1
        · exact h1
        · dsimp only
          rw [Py.bind_apply]
          have h2 : RetunedList st.1 (Py.each (Py.onFst (Prim.setHypers h')) (st.1, st.2)).2.1 :=
            each_forall₂ Retuned.refl (fun p _ => setHypers_retuned p h') st.1 st.2
          rcases e2 : Py.each (Py.onFst (Prim.setHypers h')) st with ⟨_ | us, st'⟩ <;>
            rw [show (st.1, st.2) = st from rfl, e2] at h2
          · exact h1.trans h2
          · exact h1.trans h2

theorem setHypersAll_retuned (hypers : Dict String ℝ) (ps : List Prim) (g : Rng) :
    RetunedList ps (setHypersAll hypers (ps, g)).2.1 := by
  unfold setHypersAll
  rw [Py.get_bind]
  dsimp only
  by_cases hc : sameClass ps
  swap
  · rw [Py.assert_bind_neg hc]; exact RetunedList.refl ps
  rw [Py.assert_bind_pos hc, Py.bind_apply]
  have h := each_forall₂ (R := Retuned) (T := Rng) (α := Unit) Retuned.refl
    (m := updateHypers hypers)
    (fun p _ => setHypers_retuned p _) ps g
  rcases e2 : Py.each (updateHypers hypers) (ps, g) with ⟨_ | us', st'⟩ <;> rw [e2] at h
  · exact h
  · exact h

/-! ### What that does to a model -/

variable {S : Type}

/-- `c'` holds the same table as `c`, and has the same shape. -/
structure Tune (I : Iface S) (M : Sem S) (T : Tab S) (c c' : S) : Prop where
  reg : T.Reg c'
  cell : ∀ r v, T.cell c' r v = T.cell c r v
  present : ∀ r, T.present c' r ↔ T.present c r
  scored : Scored I c → Scored I c'
  outputs : I.outputs c' = I.outputs c
  shape : M.shape c' = M.shape c

section
variable {I : Iface S} {M : Sem S} {Z : List Var} {T : Tab S}

theorem Tune.fresh {c c' : S} (h : Tune I M T c c') {r : RowId} (hf : T.Fresh c r) : T.Fresh c' r :=
  fun v => by rw [h.cell]; exact hf v

theorem SameButHypers.card {p q : Prim} (h1 : SameButHypers p q) : q.card = p.card := by
  cases p <;> cases q <;> try exact False.elim h1
  all_goals simp only [SameButHypers] at h1; rw [h1]; rfl

theorem SameButHypers.support {p q : Prim} (h1 : SameButHypers p q) : q.support = p.support := by
  cases p <;> cases q <;> try exact False.elim h1
  all_goals simp only [SameButHypers] at h1; rw [h1]; rfl

theorem Retuned.shape {p q : Prim} (h : Retuned p q) : q.shape = p.shape := by
  simp only [Prim.shape, h.1.outputs, h.1.kind, SameButHypers.card h.1]

theorem prim_tune {p q : Prim} (hp : (primTab Z).Reg p) (h : Retuned p q) :
    Tune primI primSem (primTab Z) p q where
  reg := ⟨h.2 hp.1, by rw [h.1.inputs]; exact hp.2.1, by rw [h.1.kind, h.1.outputs]; exact hp.2.2.1,
    by rw [h.1.outputs, h.1.data]; exact hp.2.2.2⟩
  cell r v := by simp only [primTab, h.1.outputs, h.1.data]
  present r := by simp only [primTab, h.1.data]
  scored _ := ⟨_, Prim.logpdfScore_eq (h.2 hp.1).1 (h.2 hp.1).2⟩
  outputs := h.1.outputs
  shape := h.shape

theorem mix_tune {A : Type} {AI : Iface A} {MA : Sem A} {X : Prim → Nat → Prop} {R : Arr A S}
    {toM fromM} {m m' : RowMix A} (h : MixReg AI I MA X R Z T m)
    (hX : ∀ d d' n, SameButHypers d d' → X d n → X d' n)
    (hd : Retuned m.rowDivide m'.rowDivide) (hr : m'.rowidToComponent = m.rowidToComponent)
    (hinv : MA.Inv m'.array) (hidx : R.idx m'.array = R.idx m.array) (hx : R.x m'.array = R.x m.array)
    (hout : AI.outputs m'.array = AI.outputs m.array) (hinp : m'.inputsX AI = [])
    (hsh : MA.shape m'.array = MA.shape m.array) (hsc : Scored AI m.array → Scored AI m'.array)
    (hget : ∀ k, (R.get m.array k = none ∧ R.get m'.array k = none) ∨
      ∃ c c', R.get m.array k = some c ∧ R.get m'.array k = some c' ∧ Tune I M T c c') :
    Tune (rowMixI AI toM fromM) (rowMixSem MA X) (rowMixTab AI I MA X R Z T) m m' := by
  have hi : m'.indexer = m.indexer := by simp only [RowMix.indexer, hd.1.outputs]
  have hget1 : ∀ {k c}, R.get m.array k = some c → ∃ c', R.get m'.array k = some c' ∧ Tune I M T c c' := by
    intro k c hk
    rcases hget k with ⟨e, _⟩ | ⟨c0, c', e1, e2, e3⟩
    · rw [e] at hk; cases hk
    · rw [e1] at hk; cases hk; exact ⟨c', e2, e3⟩
  have hget2 : ∀ {k c'}, R.get m'.array k = some c' → ∃ c, R.get m.array k = some c ∧ Tune I M T c c' := by
    intro k c' hk
    rcases hget k with ⟨_, e⟩ | ⟨c0, c1, e1, e2, e3⟩
    · rw [e] at hk; cases hk
    · rw [e2] at hk; cases hk; exact ⟨c0, e1, e3⟩
  refine ⟨?_, fun r v => ?_, fun r => ?_, fun _ => ?_, ?_, ?_⟩
  · exact {
      inv := ⟨hd.2 h.inv.1, hinv, by rw [hr]; exact h.inv.2.2.1, by
        rw [hsh]; exact hX _ _ _ hd.1 h.inv.2.2.2⟩
      inputs := by rw [hd.1.inputs]; exact h.inputs
      divides := by unfold Divides; rw [hd.1.kind]; exact h.divides
      x_eq := by rw [hx, hi]; exact h.x_eq
      x_mem := by rw [hi]; exact h.x_mem
      x_out := by rw [hi, hout]; exact h.x_out
      inputsX := hinp
      nodup := by rw [hout]; exact h.nodup
      comp := fun k c' hk => by
        obtain ⟨c, e, t⟩ := hget2 hk
        exact ⟨t.reg, by rw [t.outputs, hout]; exact (h.comp k c e).2⟩
      data := by rw [hd.1.data, hr]; exact h.data
      idx := by rw [hidx, hr]; exact h.idx
      books := fun r z hz => by
        rw [hr] at hz
        obtain ⟨k, c, e, hp⟩ := h.books r z hz
        obtain ⟨c', e', t⟩ := hget1 e
        exact ⟨k, c', e', (t.present r).2 hp⟩
      fresh := fun r k c' hk hz => by
        rw [hr] at hz
        obtain ⟨c, e, t⟩ := hget2 hk
        exact t.fresh (h.fresh r k c e hz) }
  · simp only [rowMixTab, hi, hr]
    split
    · rfl
    · rcases Dict.get? m.rowidToComponent r with _ | z
      · rfl
      · simp only [Option.bind_some]
        rcases hget z with ⟨e1, e2⟩ | ⟨c, c', e1, e2, t⟩
        · rw [e1, e2]
        · rw [e1, e2]; exact t.cell r v
  · simp only [rowMixTab, hr]
  · rename_i hs
    exact (RowMix.scored_iff (hd.2 h.inv.1)).2 (hsc ((RowMix.scored_iff h.inv.1).1 hs))
  · change m'.rowDivide.outputs ++ _ = m.rowDivide.outputs ++ _
    rw [hd.1.outputs]
    exact congrArg _ hout
  · change Shape.mix _ _ = Shape.mix _ _
    rw [hd.shape, hsh]

theorem finX_same (d d' : Prim) (n : Nat) (h : SameButHypers d d') (hd : FinX d n) : FinX d' n := by
  unfold FinX at hd ⊢
  rw [h.kind, SameButHypers.support h]
  exact hd

/-- Writing retuned objects to the references found for a column retunes the model. -/
def TuneLaw (I : Iface S) (M : Sem S) (T : Tab S) (w : S → Var → Except Err (Refs S)) (c : S) : Prop :=
  ∀ o ∈ I.outputs c, ∀ r, w c o = .ok r → ∀ l, RetunedList r.objs l → Tune I M T c (r.put l)

theorem primWalk_retuned {p : Prim} {o : Var} {l : List Prim} (h : RetunedList (primWalk p o).objs l) :
    Retuned p ((primWalk p o).put l) := by
  unfold primWalk at h ⊢
  split at h
  · rename_i hp
    rw [if_pos hp]
    cases h with
    | cons h _ => exact h
  · rename_i hp
    rw [if_neg hp]
    exact Retuned.refl p

theorem prim_tuneLaw {p : Prim} (h : (primTab Z).Reg p) :
    TuneLaw primI primSem (primTab Z) (fun p o => .ok (primWalk p o)) p := by
  intro o _ r hr l hl
  cases hr
  exact prim_tune h (primWalk_retuned hl)

theorem prodCell_set (l : List S) (i : Nat) (c c' : S) (hc : l[i]? = some c)
    (h : ∀ r v, T.cell c' r v = T.cell c r v) (r : RowId) (v : Var) :
    ProdTab.cell T (l.set i c') r v = ProdTab.cell T l r v := by
  induction l generalizing i with
  | nil => simp at hc
  | cons d l ih =>
    cases i with
    | zero =>
      simp only [List.getElem?_cons_zero, Option.some.injEq] at hc
      subst hc
      simp only [List.set_cons_zero, ProdTab.cell, List.findSome?_cons, h]
    | succ i =>
      have := ih i (by simpa using hc)
      simp only [ProdTab.cell] at this
      simp only [List.set_cons_succ, ProdTab.cell, List.findSome?_cons, this]

theorem product_tune (K : TLaws I M Z T) {p : Product S} (h : (productTab I T).Reg p)
    {i : Nat} {c c' : S} (hc : p.cgpms[i]? = some c) (t : Tune I M T c c') :
    Tune (productI I) (productSem I M) (productTab I T) p ⟨p.cgpms.set i c'⟩ := by
  have hmap : ∀ {β : Type} (f : S → β), f c' = f c → (p.cgpms.set i c').map f = p.cgpms.map f := by
    intro β f hf
    rw [List.map_set]
    apply List.ext_getElem?
    intro j
    rw [List.getElem?_set]
    split
    · rename_i hj
      subst hj
      obtain ⟨hlt, hg⟩ := List.getElem?_eq_some_iff.1 hc
      simp [hlt, hf, hg]
    · rfl
  have ho : (p.cgpms.set i c').flatMap I.outputs = p.cgpms.flatMap I.outputs := by
    rw [List.flatMap_def, List.flatMap_def, hmap I.outputs t.outputs]
  have hmem : ∀ d ∈ p.cgpms.set i c', T.Reg d := by
    intro d hd
    rcases List.mem_or_eq_of_mem_set hd with hd | rfl
    · exact h.1 d hd
    · exact t.reg
  refine ⟨⟨hmem, ?_, ?_⟩, fun r v => prodCell_set _ i c c' hc t.cell r v, fun _ => Iff.rfl, fun hs => ?_,
    ho, ?_⟩
  · exact validate_of_nodup (fun d hd => K.inputs d (hmem d hd))
      (by change ((p.cgpms.set i c').flatMap I.outputs).Nodup
          rw [ho]; exact Product.validate_nodup h.2.1)
  · change p.cgpms.set i c' ≠ []
    intro e
    have := congrArg List.length e
    rw [List.length_set] at this
    exact h.2.2 (List.length_eq_zero_iff.1 this)
  · rw [scored_product] at hs ⊢
    intro d hd
    rcases List.mem_or_eq_of_mem_set hd with hd | rfl
    · exact hs d hd
    · exact t.scored (hs c (List.mem_of_getElem? hc))
  · change Shape.product _ = Shape.product _
    rw [hmap M.shape t.shape]

theorem filter_zipIdx_single {l : List S} {P : S → Prop} [DecidablePred P] {c : S} {i : Nat}
    (h : (l.zipIdx.filter fun ci => decide (P ci.1)) = [(c, i)]) : l[i]? = some c ∧ P c := by
  have hm : (c, i) ∈ l.zipIdx.filter fun ci => decide (P ci.1) := by rw [h]; simp
  rw [List.mem_filter] at hm
  exact ⟨List.mem_zipIdx_iff_getElem?.1 hm.1, by simpa using hm.2⟩

theorem productWalk_ok {w : S → Var → Except Err (Refs S)} {p : Product S} {o : Var}
    {r : Refs (Product S)} (h : Walk.product I w p o = .ok r) :
    ∃ c i r', p.cgpms[i]? = some c ∧ o ∈ I.outputs c ∧ w c o = .ok r' ∧
      r = r'.map fun c' => ⟨p.cgpms.set i c'⟩ := by
  unfold Walk.product at h
  split at h
  · rename_i c i hf
    obtain ⟨h1, h2⟩ := filter_zipIdx_single (P := fun d => o ∈ I.outputs d) hf
    rcases hw : w c o with e | r'
    · rw [hw] at h; cases h
    · rw [hw] at h; cases h
      exact ⟨c, i, r', h1, h2, hw, rfl⟩
  · cases h

theorem product_tuneLaw (K : TLaws I M Z T) {w : S → Var → Except Err (Refs S)}
    {p : Product S} (h : (productTab I T).Reg p) (hw : ∀ c, T.Reg c → TuneLaw I M T w c) :
    TuneLaw (productI I) (productSem I M) (productTab I T) (Walk.product I w) p := by
  intro o _ r hr l hl
  obtain ⟨c, i, r', hc, ho, e, rfl⟩ := productWalk_ok hr
  exact product_tune K h hc (hw c (h.1 c (List.mem_of_getElem? hc)) o ho r' e l hl)

theorem gather_tune {w : S → Var → Except Err (Refs S)} {o : Var} {cs : List S} {rs : List (Refs S)}
    (hw : ∀ c ∈ cs, ∀ r, w c o = .ok r → ∀ l, RetunedList r.objs l → Tune I M T c (r.put l))
    (h : (cs.mapM fun c => w c o) = .ok rs) {l : List Prim} (hl : RetunedList (Refs.gather rs).objs l) :
    List.Forall₂ (Tune I M T) cs ((Refs.gather rs).put l) := by
  induction cs generalizing rs l with
  | nil => cases h; exact .nil
  | cons c cs ih =>
    rw [List.mapM_cons] at h
    rcases e1 : w c o with e | r
    · rw [e1] at h; cases h
    rcases e2 : (cs.mapM fun c => w c o) with e | rs'
    · rw [e1, e2] at h; cases h
    rw [e1, e2] at h
    cases h
    change RetunedList (r.objs ++ (Refs.gather rs').objs) l at hl
    have hlen : l.length = r.objs.length + (Refs.gather rs').objs.length := by
      rw [← List.length_append]; exact hl.length_eq.symm
    have h1 : RetunedList r.objs (l.take r.objs.length) := by
      have := List.forall₂_take r.objs.length hl
      rwa [List.take_left] at this
    have h2 : RetunedList (Refs.gather rs').objs (l.drop r.objs.length) := by
      have := List.forall₂_drop r.objs.length hl
      rwa [List.drop_left] at this
    exact .cons (hw c (by simp) r e1 _ h1) (ih (fun d hd => hw d (by simp [hd])) e2 h2)

theorem forall₂_getElem? {R : S → S → Prop} {l l' : List S} (h : List.Forall₂ R l l') (i : Nat) :
    (l[i]? = none ∧ l'[i]? = none) ∨ ∃ c c', l[i]? = some c ∧ l'[i]? = some c' ∧ R c c' := by
  induction h generalizing i with
  | nil => exact .inl ⟨rfl, rfl⟩
  | cons a _ ih =>
    cases i with
    | zero => exact .inr ⟨_, _, rfl, rfl, a⟩
    | succ i => simpa using ih i

theorem forall₂_mem {R : S → S → Prop} {l l' : List S} (h : List.Forall₂ R l l') {c' : S} (hc : c' ∈ l') :
    ∃ c ∈ l, R c c' := by
  obtain ⟨i, hi⟩ := List.mem_iff_getElem?.1 hc
  rcases forall₂_getElem? h i with ⟨_, e⟩ | ⟨a, b, e1, e2, e3⟩
  · rw [e] at hi; cases hi
  · rw [e2] at hi; cases hi; exact ⟨a, List.mem_of_getElem? e1, e3⟩

theorem finMix_tuneLaw (K : TLaws I M Z T) {w : S → Var → Except Err (Refs S)}
    {m : FinMix S} (h : (finMixTab I M Z T).Reg m) (hw : ∀ c, T.Reg c → TuneLaw I M T w c) :
    TuneLaw (finMixI I) (finMixSem M) (finMixTab I M Z T) (Walk.rowMix (Walk.finArray w)) m := by
  intro o ho r hr l hl
  have hrefl : ∀ c, T.Reg c → Tune I M T c c := fun c hc =>
    ⟨hc, fun _ _ => rfl, fun _ => Iff.rfl, id, rfl, rfl⟩
  unfold Walk.rowMix at hr
  by_cases hod : o ∈ m.rowDivide.outputs
  · rw [if_pos hod] at hr
    cases hr
    refine mix_tune (M := M) h finX_same (primWalk_retuned hl) rfl h.inv.2.1 rfl rfl rfl h.inputsX rfl id
      fun k => ?_
    change (_ ∧ (finArr (S := S)).get m.array k = none) ∨ ∃ c c', _ ∧ (finArr (S := S)).get m.array k = _ ∧ _
    rcases e : (finArr (S := S)).get m.array k with _ | c
    · exact .inl ⟨rfl, rfl⟩
    · exact .inr ⟨c, c, rfl, rfl, hrefl c (h.comp k c e).1⟩
  · rw [if_neg hod] at hr
    have hoa : o ∈ m.array.outputs I := (List.mem_append.1 ho).resolve_left hod
    unfold Walk.finArray at hr
    rcases e : (m.array.cgpms.mapM fun c => w c o) with _ | rs
    · rw [e] at hr; cases hr
    rw [e] at hr
    cases hr
    have ht : List.Forall₂ (Tune I M T) m.array.cgpms ((Refs.gather rs).put l) :=
      gather_tune (fun c hc => hw c (mixReg_fin_mem h hc).1 o
        (by rw [(mixReg_fin_mem h hc).2]; exact hoa)) e hl
    change Tune _ _ _ m { m with array := { m.array with cgpms := (Refs.gather rs).put l } }
    generalize (Refs.gather rs).put l = cs at ht
    have hlen := ht.length_eq
    have hmapeq : ∀ {β : Type} (f : S → β), (∀ c c', Tune I M T c c' → f c' = f c) →
        cs.map f = m.array.cgpms.map f := by
      intro β f hf
      clear hlen hl e
      revert ht
      generalize m.array.cgpms = ds
      intro ht
      induction ht with
      | nil => rfl
      | cons a _ ih => rw [List.map_cons, List.map_cons, ih, hf _ _ a]
    have hne : cs ≠ [] := by
      intro e
      rw [e] at hlen
      exact h.inv.2.1.2.1 (List.length_eq_zero_iff.1 hlen)
    have hreg : ∀ c ∈ cs, T.Reg c := by
      intro c hc
      obtain ⟨c0, _, t⟩ := forall₂_mem ht hc
      exact t.reg
    refine mix_tune (M := M) h finX_same (Retuned.refl _) rfl ⟨fun c hc => K.inv c (hreg c hc), hne,
      h.inv.2.1.2.2⟩ rfl rfl ?_ ?_ ?_ ?_ fun k => ?_
    · change ({ m.array with cgpms := cs } : FinArray S).outputs I = m.array.outputs I
      unfold FinArray.outputs
      dsimp only
      clear hlen hmapeq hreg hl e
      revert ht
      generalize m.array.cgpms = ds
      intro ht
      cases ht with
      | nil => exact (hne rfl).elim
      | cons a _ => exact a.outputs
    · change (({ m.array with cgpms := cs } : FinArray S).inputs I).tail = []
      unfold FinArray.inputs
      cases cs with
      | nil => exact (hne rfl).elim
      | cons c cs => exact K.inputs _ (hreg c (by simp))
    · change Shape.array _ = Shape.array _
      rw [hmapeq M.shape fun c c' t => t.shape]
    · exact fun hs => (FinArray.not_scored _ h.inv.2.1 hs).elim
    · simp only [finArr]
      rcases natIndex k with _ | j
      · exact .inl ⟨rfl, rfl⟩
      · exact forall₂_getElem? ht j

theorem flexMix_tuneLaw (L : Laws I M) (K : TLaws I M Z T) (F : Frame I M T)
    {w : S → Var → Except Err (Refs S)}
    {m : FlexMix S} (h : (flexMixTab I M Z T).Reg m) (hw : ∀ c, T.Reg c → TuneLaw I M T w c) :
    TuneLaw (flexMixI I) (flexMixSem I M) (flexMixTab I M Z T) (Walk.rowMix (Walk.flexArray w)) m := by
  intro o ho r hr l hl
  have hX : ∀ (d d' : Prim) (n : Nat), SameButHypers d d' → True → True := fun _ _ _ _ _ => trivial
  unfold Walk.rowMix at hr
  by_cases hod : o ∈ m.rowDivide.outputs
  · rw [if_pos hod] at hr
    cases hr
    exact mix_tune (M := M) h hX (primWalk_retuned hl) rfl h.inv.2.1 rfl rfl rfl h.inputsX rfl id
      fun k => .inr ⟨_, _, rfl, rfl, (h.comp k _ rfl).1, fun _ _ => rfl, fun _ => Iff.rfl, id, rfl, rfl⟩
  rw [if_neg hod] at hr
  have hoa : o ∈ I.outputs m.array.base := (List.mem_append.1 ho).resolve_left hod
  obtain ⟨b1, b2, b3⟩ := flexMix_base L K h
  unfold Walk.flexArray at hr
  rcases e : ((Dict.values m.array.cgpms).mapM fun c => w c o) with _ | rs
  · rw [e] at hr; cases hr
  rcases eb : w m.array.base o with _ | rb
  · simp only [e, eb] at hr; cases hr
  simp only [e, eb] at hr
  cases hr
  change RetunedList ((Refs.gather rs).objs ++ rb.objs) l at hl
  have h1 : RetunedList (Refs.gather rs).objs (l.take (Refs.gather rs).objs.length) := by
    have := List.forall₂_take (Refs.gather rs).objs.length hl
    rwa [List.take_left] at this
  have h2 : RetunedList rb.objs (l.drop (Refs.gather rs).objs.length) := by
    have := List.forall₂_drop (Refs.gather rs).objs.length hl
    rwa [List.drop_left] at this
  have ht : List.Forall₂ (Tune I M T) (Dict.values m.array.cgpms)
      ((Refs.gather rs).put (l.take (Refs.gather rs).objs.length)) :=
    gather_tune (fun c hc => hw c (mixReg_mem h hc).1 o
      (by rw [(mixReg_mem h hc).2]; exact hoa)) e h1
  have hb := hw _ b1 o hoa rb eb _ h2
  change Tune _ _ _ m { m with array := { m.array with
    cgpms := (Dict.keys m.array.cgpms).zip ((Refs.gather rs).put (l.take (Refs.gather rs).objs.length))
    base := rb.put (l.drop (Refs.gather rs).objs.length) } }
  generalize (Refs.gather rs).put (l.take (Refs.gather rs).objs.length) = cs at ht
  generalize rb.put (l.drop (Refs.gather rs).objs.length) = b at hb
  have ha : Alike (Tune I M T) m.array.cgpms ((Dict.keys m.array.cgpms).zip cs) := by
    clear hl h1 h2 e hb eb
    revert ht
    generalize m.array.cgpms = d
    intro ht
    induction d generalizing cs with
    | nil => exact .nil
    | cons kc d ih =>
      cases ht with
      | cons a t => exact .cons ⟨rfl, a⟩ (ih _ t)
  have hE := L.strip _ (K.inv _ hb.reg)
  have hbs : Scored I m.array.base := ⟨0, h.inv.2.1.1.2⟩
  have hcomp : ∀ k, Tune I M T (m.array.comp M k)
      (({ m.array with base := b, cgpms := (Dict.keys m.array.cgpms).zip cs } : FlexArray S).comp M k) := by
    intro k
    unfold FlexArray.comp
    dsimp only
    rcases ha.get k with ⟨e1, e2⟩ | ⟨c, c', e1, e2, h1⟩
    · rw [e1, e2]
      dsimp only [Option.getD_none]
      refine ⟨K.reg_E _ _ hE hb.reg, fun r v => ?_, fun r => ?_, fun _ => ?_, ?_, ?_⟩
      · rw [← K.cell_E _ _ hE hb.reg, ← K.cell_E _ _ b2 b1, hb.cell]
      · rw [← K.present_E _ _ r hE hb.reg, ← K.present_E _ _ r b2 b1, hb.present]
      · exact (L.scored_E hE).1 (hb.scored hbs)
      · rw [← L.outputs_E hE, ← L.outputs_E b2, hb.outputs]
      · rw [← L.shape_E hE, ← L.shape_E b2, hb.shape]
    · rw [e1, e2]
      exact h1
  have hsc : ∀ k, Scored I (m.array.comp M k) := fun k => (h.inv.2.1.2.1 k).2.1
  have hshk : ∀ k, M.shape (m.array.comp M k) = M.shape m.array.base := fun k => (h.inv.2.1.2.1 k).2.2
  have hinv : (flexArraySem I M).Inv
      { m.array with base := b, cgpms := (Dict.keys m.array.cgpms).zip cs } := by
    refine ⟨⟨K.inv _ hb.reg, F.zero _ hb.reg (fun r => hb.fresh (b3 r)) (hb.scored hbs)⟩,
      fun k => ⟨K.inv _ (hcomp k).reg, (hcomp k).scored (hsc k), ?_⟩, ?_,
      h.inv.2.1.2.2.2⟩
    · rw [(hcomp k).shape, hshk, hb.shape]
    · rw [ha.keys]; exact h.inv.2.1.2.2.1
  exact mix_tune (M := M) h hX (Retuned.refl _) rfl hinv rfl rfl hb.outputs (K.inputs _ hb.reg)
    hb.shape (fun _ => FlexArray.scored hinv) fun k => .inr ⟨_, _, rfl, rfl, hcomp k⟩

theorem node_tuneLaw (L : Laws I M) (K : TLaws I M Z T) (F : Frame I M T)
    {w : S → Var → Except Err (Refs S)} (hw : ∀ c, T.Reg c → TuneLaw I M T w c) (c : Node S)
    (hc : (nodeTab I M Z T).Reg c) :
    TuneLaw (nodeI I) (nodeSem I M) (nodeTab I M Z T) (Walk.node I w) c := by
  intro o ho r hr l hl
  cases c with
  | prim p =>
    cases hr
    have t := prim_tune (Z := Z) hc (primWalk_retuned hl)
    exact ⟨t.reg, t.cell, t.present, t.scored, t.outputs, t.shape⟩
  | product p =>
    change (Walk.product I w p o).map (Refs.map .product) = .ok r at hr
    rcases e : Walk.product I w p o with _ | r'
    · rw [e] at hr; cases hr
    rw [e] at hr; cases hr
    have t := product_tuneLaw K hc hw o ho r' e l hl
    exact ⟨t.reg, t.cell, t.present, t.scored, t.outputs, t.shape⟩
  | finArray a => exact hc.elim
  | flexArray a => exact hc.elim
  | finMix m =>
    change (Walk.rowMix (Walk.finArray w) m o).map (Refs.map .finMix) = .ok r at hr
    rcases e : Walk.rowMix (Walk.finArray w) m o with _ | r'
    · rw [e] at hr; cases hr
    rw [e] at hr; cases hr
    have t := finMix_tuneLaw K hc hw o ho r' e l hl
    exact ⟨t.reg, t.cell, t.present, t.scored, t.outputs, t.shape⟩
  | flexMix m =>
    change (Walk.rowMix (Walk.flexArray w) m o).map (Refs.map .flexMix) = .ok r at hr
    rcases e : Walk.rowMix (Walk.flexArray w) m o with _ | r'
    · rw [e] at hr; cases hr
    rw [e] at hr; cases hr
    have t := flexMix_tuneLaw L K F hc hw o ho r' e l hl
    exact ⟨t.reg, t.cell, t.present, t.scored, t.outputs, t.shape⟩

end

/-- At every depth. -/
theorem cgpm_tune (Z : List Var) : ∀ (n : Nat) (c : Cgpm n), (cgpmTab Z n).Reg c →
    TuneLaw (cgpmI n) (cgpmSem n) (cgpmTab Z n) (cgpmsByOutput n) c
  | 0, _, hc => prim_tuneLaw (Z := Z) hc
  | n + 1, c, hc => node_tuneLaw (cgpmLaws n) (cgpmTLaws Z n) (cgpmFrame Z n)
      (fun d hd => cgpm_tune Z n d hd) c hc

end Cgpm2
