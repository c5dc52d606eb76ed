import Verif.Lemmas.Table
import Verif.Lemmas.PrimSim
import Verif.Lemmas.MixEval

/-!
# The table held by a row mixture (helpers)
-/

namespace Cgpm2
open Spec

variable {A S : Type}

/-- The classes that can divide rows. -/
def Divides (d : Prim) : Prop := d.kind = .crp ∨ d.kind = .categorical ∨ d.kind = .bernoulli

/-- The books of the mixture agree. -/
structure MixReg (AI : Iface A) (I : Iface S) (MA : Sem A) (X : Prim → Nat → Prop) (R : Arr A S)
    (Z : List Var) (T : Tab S) (m : RowMix A) : Prop where
  inv : (rowMixSem MA X).Inv m
  inputs : m.rowDivide.inputs = []
  divides : Divides m.rowDivide
  x_eq : R.x m.array = m.indexer
  x_mem : m.indexer ∈ Z
  x_out : m.indexer ∉ AI.outputs m.array
  inputsX : m.inputsX AI = []
  nodup : (AI.outputs m.array).Nodup
  comp : ∀ k c, R.get m.array k = some c → T.Reg c ∧ I.outputs c = AI.outputs m.array
  data : ∀ r, Dict.get? m.rowDivide.data r = Dict.get? m.rowidToComponent r
  idx : ∀ r, Dict.get? (R.idx m.array) r = Dict.get? m.rowidToComponent r
  books : ∀ r z, Dict.get? m.rowidToComponent r = some z →
    (∃ k : Int, z = .num (k : ℚ)) ∧ ∃ c, R.get m.array z = some c ∧ T.present c r
  fresh : ∀ r k c, R.get m.array k = some c → Dict.get? m.rowidToComponent r ≠ some k →
    T.Fresh c r

/-- The table held by a row mixture. -/
def rowMixTab (AI : Iface A) (I : Iface S) (MA : Sem A) (X : Prim → Nat → Prop) (R : Arr A S)
    (Z : List Var) (T : Tab S) : Tab (RowMix A) where
  Reg := MixReg AI I MA X R Z T
  cell m r v :=
    if v = m.indexer then Dict.get? m.rowidToComponent r
    else (Dict.get? m.rowidToComponent r).bind fun z => (R.get m.array z).bind fun c => T.cell c r v
  present m r := Dict.get? m.rowidToComponent r ≠ none

theorem onArray_eq {α : Type} (f : Py (A × Rng) α) (m : RowMix A) (g : Rng) :
    RowMix.onArray f (m, g) = ((f (m.array, g)).1,
      ({ m with array := (f (m.array, g)).2.1 }, (f (m.array, g)).2.2)) := rfl

theorem onDivide_eq {α : Type} (f : Py Prim α) (m : RowMix A) (g : Rng) :
    RowMix.onDivide f (m, g) = ((f m.rowDivide).1,
      ({ m with rowDivide := (f m.rowDivide).2 }, g)) := rfl

theorem merged_single (x : Var) (z : Val) : merged [] [(x, z)] = [(x, z)] := rfl

/-- A divider's sample for one row is one whole-number cluster. -/
theorem Prim.simulate_whole {d : Prim} (hd : Divides d) (hI : d.Inv) {x : Var}
    (hx : d.outputs = [x]) {r : RowId} (hr : Dict.get? d.data r = none) {g g' : Rng} {out : SimOut}
    (h : d.simulate r [x] [] [] none g = (.ok out, g')) : ∃ k : Int, out = .one [(x, .num (k : ℚ))] := by
  cases d with
  | crp c =>
    change simulateMany (c.simulate1 r [x] [] []) none g = _ at h
    rw [simulateMany_none] at h
    have hr' : Dict.get? c.data r = none := by
      rw [Dict.get?_eq_none_iff] at hr ⊢
      simpa [Prim.data, Dict.keys] using hr
    have hox : c.outputs = [x] := hx
    unfold Crp.simulate1 at h
    simp only [Py.bind_apply, Py.lift_apply, hox, simulateGuard_ok, firstOutput_single, hr'] at h
    rcases hm : (c.support.mapM fun (y : Int) => c.logpdf r [(x, .num y)] [] []) with e | lp <;>
      rw [hm] at h <;> dsimp only at h
    · cases h
    · rcases hp : logPflipIdx lp g with ⟨_ | j, g1⟩ <;> rw [hp] at h <;> dsimp only at h
      · cases h
      · cases h
        exact ⟨_, rfl⟩
  | categorical c =>
    change simulateMany (c.simulate1 r [x] [] []) none g = _ at h
    have hr' : Dict.get? c.data r = none := hr
    rw [simulateMany_none, Categorical.simulate1_free hx (by simp [hr'])] at h
    rcases hp : pflipIdx c.simulateWeights g with ⟨_ | j, g1⟩ <;> rw [hp] at h
    · cases h
    · cases h
      exact ⟨(j : Int), by simp⟩
  | bernoulli c =>
    change simulateMany (c.simulate1 r [x] [] []) none g = _ at h
    have hr' : Dict.get? c.data r = none := hr
    have hox : c.outputs = [x] := hx
    rw [simulateMany_none] at h
    unfold Bernoulli.simulate1 at h
    simp only [Py.bind_apply, Py.lift_apply, hox, simulateGuard_ok, firstOutput_single, hr'] at h
    rcases h0 : Bernoulli.calcPredictiveLogp false c.N c.xSum c.alpha c.beta with e | p0 <;>
      rw [h0] at h <;> dsimp only at h
    · cases h
    rcases h1 : Bernoulli.calcPredictiveLogp true c.N c.xSum c.alpha c.beta with e | p1 <;>
      rw [h1] at h <;> dsimp only at h
    · cases h
    rcases hp : logPflipIdx [p0, p1] g with ⟨_ | j, g1⟩ <;> rw [hp] at h <;> dsimp only at h
    · cases h
    · cases h
      exact ⟨(j : Int), by simp⟩
  | normal c => simp [Divides, Prim.kind] at hd
  | normalUC c => simp [Divides, Prim.kind] at hd
  | poisson c => simp [Divides, Prim.kind] at hd

section
variable {AI : Iface A} {I : Iface S} {MA : Sem A} {M : Sem S} {X : Prim → Nat → Prop}
  {R : Arr A S} {Z : List Var} {T : Tab S}

theorem MixReg.out {m : RowMix A} (h : MixReg AI I MA X R Z T m) :
    m.rowDivide.outputs = [m.indexer] := by
  obtain ⟨o, ho⟩ := h.inv.1.1.out
  simp [RowMix.indexer, ho]

theorem array_observe_ok (LR : ArrLaws AI I MA M R) {m m' : RowMix A} (hi : MA.Inv m.array) {x : Var}
    (hx : R.x m.array = x) {z : Val} {c : S} (hc : R.get m.array z = some c) {r o g g'}
    (h : RowMix.onArray (AI.observe r o [(x, z)]) (m, g) = (.ok (), (m', g'))) :
    ∃ c', I.observe r o [] (c, g) = (.ok (), (c', g')) ∧
      m' = { m with array := R.setIdx (R.put m.array z c') (Dict.set (R.idx m.array) r z) } := by
  subst hx
  rw [onArray_eq, LR.observe _ _ _ _ _ _ hi hc] at h
  rcases ho : I.observe r o [] (c, g) with ⟨_ | u, c', g1⟩ <;> rw [ho] at h
  · cases h
  · cases h
    exact ⟨c', rfl, rfl⟩

/-- The outcome of a successful observe of a mixture. -/
def RowMix.Observed (AI : Iface A) (I : Iface S) (R : Arr A S) (m m' : RowMix A) (r : RowId)
    (o : Dict Var Val) (g' : Rng) : Prop :=
    ∃ z c c' g1, (∃ k : Int, z = .num (k : ℚ)) ∧ R.get m.array z = some c ∧
      I.observe r (only (AI.outputs m.array) o) [] (c, g1) = (.ok (), (c', g')) ∧
      m'.array = R.setIdx (R.put m.array z c') (Dict.set (R.idx m.array) r z) ∧
      ((Dict.get? m.rowidToComponent r = some z ∧ m'.rowDivide = m.rowDivide ∧
          m'.rowidToComponent = m.rowidToComponent) ∨
        (Dict.get? m.rowidToComponent r = none ∧ m.rowDivide.Legal z ∧
          (∀ y, Dict.get? o m.indexer = some y → z = y) ∧
          m'.rowDivide = m.rowDivide.add r z ∧
          m'.rowidToComponent = Dict.set m.rowidToComponent r z))

/-- What a successful observe of a mixture does. -/
theorem RowMix.observe_ok (LR : ArrLaws AI I MA M R) {m m' : RowMix A}
    (h : MixReg AI I MA X R Z T m)
    (hG : ∀ z, m.rowDivide.Legal z → (∃ k : Int, z = .num (k : ℚ)) → ∃ c, R.get m.array z = some c)
    {r o i g g'} (hw : Whole Z o)
    (ho : RowMix.observe AI r o i (m, g) = (.ok (), (m', g'))) :
    Observed AI I R m m' r o g' := by
  unfold RowMix.observe at ho
  rw [Py.get_bind] at ho
  dsimp only at ho
  rw [h.inputsX, getIntersection_eq, getIntersection_eq, getIntersection_eq, only_nil,
    show m.inputsZ = [] from h.inputs, only_nil] at ho
  -- the part common to the two ways of getting a new cluster
  have key : ∀ z g1, Dict.get? m.rowidToComponent r = none → (∃ k : Int, z = .num (k : ℚ)) →
      (∀ y, Dict.get? o m.indexer = some y → z = y) →
      (RowMix.onDivide (Prim.observe r [(m.indexer, z)] []) >>= fun _ =>
        Py.lift (Dict.getItem [(m.indexer, z)] m.indexer) >>= fun z' =>
        Py.modify (fun st : RowMix A × Rng =>
          ({ st.1 with rowidToComponent := Dict.set st.1.rowidToComponent r z' }, st.2)) >>= fun _ =>
        (pure [(m.indexer, z)] : Py (RowMix A × Rng) (Dict Var Val)) >>= fun component =>
        RowMix.onArray (AI.observe r (only (m.outputsX AI) o) (merged [] component)))
        (m, g1) = (.ok (), (m', g')) → Observed AI I R m m' r o g' := by
    intro z g1 hn hz hy hk
    rw [Py.bind_apply, onDivide_eq] at hk
    rcases Prim.observe_cases h.out r [(m.indexer, z)] [] with ⟨e, he⟩ | ⟨v, h1, -, h3, h4, h5⟩
    · rw [he] at hk; cases hk
    · cases h1
      rw [h5] at hk
      dsimp only at hk
      rw [Py.lift_bind, Dict.getItem_ok (v := z) (by simp [Dict.get?])] at hk
      dsimp only at hk
      rw [Py.modify_bind] at hk
      dsimp only at hk
      rw [Py.pure_bind', merged_single] at hk
      obtain ⟨c, hc⟩ := hG z h4 hz
      obtain ⟨c', e1, e2⟩ := array_observe_ok LR (m := ⟨m.rowDivide.add r z, m.array,
        Dict.set m.rowidToComponent r z⟩) h.inv.2.1 h.x_eq hc hk
      exact ⟨z, c, c', g1, hz, hc, e1, by rw [e2], .inr ⟨hn, h4, hy, by rw [e2], by rw [e2]⟩⟩
  rcases hn : Dict.get? m.rowidToComponent r with _ | z <;> rw [hn] at ho <;> dsimp only at ho
  rotate_left
  · have hz := hn
    obtain ⟨hk, c, hc, -⟩ := h.books r z hz
    rw [Py.pure_bind', merged_single] at ho
    obtain ⟨c', e1, e2⟩ := array_observe_ok LR h.inv.2.1 h.x_eq hc ho
    exact ⟨z, c, c', g, hk, hc, e1, by rw [e2], .inl ⟨hz, by rw [e2], by rw [e2]⟩⟩
  · rcases hz : Dict.get? o m.indexer with _ | z <;> rw [hz] at ho <;> dsimp only at ho
    rotate_left
    · rw [Py.pure_bind'] at ho
      exact key z g hn (hw _ h.x_mem _ hz) (fun y hy => by rw [hz] at hy; exact Option.some.inj hy) ho
    · rw [Py.bind_apply] at ho
      have hr : Dict.get? m.rowDivide.data r = none := (h.data r).trans hn
      rcases hs : Py.onSnd (m.rowDivide.simulate r [m.indexer] [] [] none) (m, g) with
        ⟨_ | out, m1, g1⟩ <;> rw [hs] at ho
      · cases ho
      · dsimp only at ho
        unfold Py.onSnd at hs
        rcases hs' : m.rowDivide.simulate r [m.indexer] [] [] none g with ⟨_ | out', g2⟩
        · dsimp only at hs; rw [hs'] at hs; cases hs
        · dsimp only at hs
          rw [hs'] at hs
          cases hs
          obtain ⟨k, rfl⟩ := Prim.simulate_whole h.divides h.inv.1.1 h.out hr hs'
          rw [Py.lift_bind] at ho
          exact key _ _ hn ⟨k, rfl⟩ (fun y hy => by rw [hz] at hy; cases hy) ho

theorem merged_nil_right (o : Dict Var Val) (h : (Dict.keys o).Nodup) : merged o [] = o := by
  unfold merged
  rw [Dict.update_nil_left _ h]
  rfl

theorem Fl.fin_add_eq (a b : ℝ) : (Fl.fin a + Fl.fin b) = Fl.fin (a + b) := rfl

theorem Fl.fin_add_fin {a x : ℝ} {l : Fl} (h : Fl.fin a + l = .fin x) :
    ∃ b, l = .fin b ∧ a + b = x := by
  cases l <;> first | cases h; exact ⟨_, rfl, rfl⟩ | cases h

theorem Fl.add_sub_zero_fin {l k : Fl} {x : ℝ} (h : (l + k) - .fin 0 = .fin x) :
    ∃ a b, l = .fin a ∧ k = .fin b ∧ a + b = x := by
  cases l <;> cases k <;> first
    | (have h' := Fl.fin.inj h; exact ⟨_, _, rfl, rfl, by simpa using h'⟩)
    | cases h

theorem Arr.get_after (LR : ArrLaws AI I MA M R) {a : A} {z k : Val} {c c' : S}
    (hc : R.get a z = some c) (d : Dict RowId Val) :
    R.get (R.setIdx (R.put a z c') d) k = if k = z then some c' else R.get a k := by
  rw [LR.get_setIdx, LR.get_put _ _ _ _ _ hc]

/-- The outcome of unobserve of a held row. -/
theorem RowMix.unobserve_ok (LR : ArrLaws AI I MA M R) (K : TLaws I M Z T) {m : RowMix A}
    (h : MixReg AI I MA X R Z T m) {r : RowId} {z : Val}
    (hz : Dict.get? m.rowidToComponent r = some z) (g : Rng) :
    ∃ c c' ob, R.get m.array z = some c ∧ I.unobserve r (c, g) = (.ok (ob, []), (c', g)) ∧
      RowMix.unobserve AI r (m, g) = (.ok (merged [(m.indexer, z)] ob, []),
        (⟨m.rowDivide.remove r z, R.put (R.setIdx m.array (Dict.del (R.idx m.array) r)) z c',
          Dict.del m.rowidToComponent r⟩, g)) ∧ T.Reg c' ∧ (Dict.keys ob).Nodup ∧
      (∀ v, Dict.get? ob v = T.cell c r v) ∧ (∀ v, T.cell c' r v = none) ∧
      (∀ r' v, r' ≠ r → T.cell c' r' v = T.cell c r' v) ∧
      (∀ r', r' ≠ r → (T.present c' r' ↔ T.present c r')) := by
  obtain ⟨-, c, hc, hp⟩ := h.books r z hz
  obtain ⟨ob, c', h1, h2, h3, h4, h5, h6, h7⟩ := K.unobserve c r g (h.comp z c hc).1 hp
  refine ⟨c, c', ob, hc, h1, ?_, h2, h3, h4, h5, h6, h7⟩
  unfold RowMix.unobserve
  rw [Py.bind_apply, onDivide_eq, Prim.unobserve_held h.inv.1.1 h.out ((h.data r).trans hz)]
  dsimp only
  rw [Py.bind_apply, onArray_eq, LR.unobserve _ _ _ _ _ h.inv.2.1 ((h.idx r).trans hz) hc, h1]
  dsimp only
  rw [Py.get_bind]
  dsimp only
  rw [Py.lift_bind, Dict.getItem_ok hz]
  rfl

theorem RowMix.unobserve_absent {m : RowMix A} (h : MixReg AI I MA X R Z T m) {r : RowId}
    (hz : Dict.get? m.rowidToComponent r = none) (g : Rng) :
    ∃ e, RowMix.unobserve AI r (m, g) = (.error e, (m, g)) := by
  have hr : r ∉ Dict.keys m.rowDivide.data := by
    rw [← Dict.get?_eq_none_iff]; exact (h.data r).trans hz
  unfold RowMix.unobserve
  rw [Py.bind_apply, onDivide_eq, Prim.unobserve_absent hr]
  exact ⟨_, rfl⟩

theorem get?_merged (d e : Dict Var Val) (hd : (Dict.keys d).Nodup) (he : (Dict.keys e).Nodup)
    (v : Var) : Dict.get? (merged d e) v = match Dict.get? e v with
      | some x => some x
      | none => Dict.get? d v := by
  unfold merged
  rw [Dict.get?_update _ _ he, Dict.update_nil_left _ hd]
  rcases Dict.get? e v <;> rfl

theorem nodup_merged (d e : Dict Var Val) : (Dict.keys (merged d e)).Nodup := by
  unfold merged
  exact nodup_update' _ _ (nodup_update' _ _ (by simp))

theorem MixReg.fresh_iff {m : RowMix A} {r : RowId}
    (hf : (rowMixTab AI I MA X R Z T).Fresh m r) : Dict.get? m.rowidToComponent r = none := by
  have := hf m.indexer
  simpa [rowMixTab] using this

theorem MixReg.stored {m : RowMix A} (_h : MixReg AI I MA X R Z T m) {z : Val}
    (hz : ∃ k : Int, z = .num (k : ℚ)) : m.rowDivide.stored z = z :=
  Prim.Legal.stored fun _ => hz

theorem rowMixTLaws {toM fromM} (L0 : Laws I M) (LA : Laws AI MA) (LR : ArrLaws AI I MA M R)
    (hX : Stable X)
    (L : Laws (rowMixI AI toM fromM) (rowMixSem MA X)) (K : TLaws I M Z T)
    (hG : ∀ m, MixReg AI I MA X R Z T m → ∀ z, m.rowDivide.Legal z →
      (∃ k : Int, z = .num (k : ℚ)) → ∃ c, R.get m.array z = some c) :
    TLaws (rowMixI AI toM fromM) (rowMixSem MA X) Z (rowMixTab AI I MA X R Z T) where
  inv m h := h.inv
  inputs m h := by
    change m.inputsZ ++ m.inputsX AI = []
    rw [h.inputsX, show m.inputsZ = [] from h.inputs]; rfl
  nodup m h := by
    change (m.rowDivide.outputs ++ AI.outputs m.array).Nodup
    rw [h.out]
    exact List.nodup_cons.2 ⟨h.x_out, h.nodup⟩
  reg_E m n hE h := by
    have h0 : RowMix.E0 MA m n := hE.1
    have hx : n.indexer = m.indexer := h0.indexer.symm
    have ho : AI.outputs n.array = AI.outputs m.array := (LA.outputs_E h0.2.1).symm
    have hr2c : n.rowidToComponent = m.rowidToComponent := h0.2.2.symm
    have hsym : MA.E n.array m.array := LA.symm _ _ h0.2.1
    exact {
      inv := RowMix.inv_of_E0 LA hX h0 h.inv
      inputs := by rw [← h.inputs]; exact (primLaws.inputs_E h0.1).symm
      divides := by unfold Divides; rw [← Prim.E_kind h0.1]; exact h.divides
      x_eq := by rw [hx, ← h.x_eq]; exact (LR.E_x _ _ h0.2.1).symm
      x_mem := hx ▸ h.x_mem
      x_out := by rw [hx, ho]; exact h.x_out
      inputsX := by rw [← h0.inputsX LA]; exact h.inputsX
      nodup := by rw [ho]; exact h.nodup
      comp := fun k c hc => by
        obtain ⟨c', h1, h2⟩ := LR.get_E _ _ _ _ hsym hc
        obtain ⟨h3, h4⟩ := h.comp k c' h1
        have h2' := L0.symm _ _ h2
        exact ⟨K.reg_E _ _ h2' h3, by rw [ho, ← h4]; exact (L0.outputs_E h2)⟩
      data := fun r => by rw [hr2c, ← h.data, Prim.E_data h0.1]
      idx := fun r => by rw [hr2c, ← h.idx, LR.E_idx _ _ h0.2.1]
      books := fun r z hz => by
        rw [hr2c] at hz
        obtain ⟨hk, c, hc, hp⟩ := h.books r z hz
        obtain ⟨c', h1, h2⟩ := LR.get_E _ _ _ _ h0.2.1 hc
        exact ⟨hk, c', h1, (K.present_E _ _ r h2 (h.comp _ _ hc).1).1 hp⟩
      fresh := fun r k c hc hne v => by
        rw [hr2c] at hne
        obtain ⟨c', h1, h2⟩ := LR.get_E _ _ _ _ hsym hc
        have h2' := L0.symm _ _ h2
        rw [← K.cell_E _ _ h2' (h.comp _ _ h1).1]
        exact h.fresh r k c' h1 hne v }
  cell_E m n hE h := by
    have h0 : RowMix.E0 MA m n := hE.1
    funext r v
    simp only [rowMixTab, h0.indexer, h0.2.2]
    split
    · rfl
    · rcases hz : Dict.get? n.rowidToComponent r with _ | z
      · rfl
      · obtain ⟨-, c, hc, hp⟩ := h.books r z (by rw [h0.2.2]; exact hz)
        obtain ⟨c', h1, h2⟩ := LR.get_E _ _ _ _ h0.2.1 hc
        simp only [Option.bind_some, hc, h1, K.cell_E _ _ h2 (h.comp _ _ hc).1]
  present_E m n r hE h := by
    have h0 : RowMix.E0 MA m n := hE.1
    simp only [rowMixTab, h0.2.2]
  cell_out m r v h hv := by
    change v ∉ m.rowDivide.outputs ++ AI.outputs m.array at hv
    rw [h.out] at hv
    simp only [List.singleton_append, List.mem_cons, not_or] at hv
    simp only [rowMixTab, if_neg hv.1]
    rcases hz : Dict.get? m.rowidToComponent r with _ | z
    · rfl
    · obtain ⟨-, c, hc, hp⟩ := h.books r z hz
      obtain ⟨h1, h2⟩ := h.comp z c hc
      simp only [Option.bind_some, hc]
      exact K.cell_out c r v h1 (h2 ▸ hv.2)
  present_cell m r v h hc := by
    simp only [rowMixTab] at hc ⊢
    intro hn
    rw [hn] at hc
    simp at hc
  whole m r v x h hv hx := by
    simp only [rowMixTab] at hx
    split at hx
    · exact (h.books r x hx).1
    · obtain ⟨z, hz, hx⟩ := Option.bind_eq_some_iff.1 hx
      obtain ⟨c, hc, hx⟩ := Option.bind_eq_some_iff.1 hx
      exact K.whole c r v x (h.comp z c hc).1 hv hx
  observe m r o i g m' g' h hw ho := by
    have hinv := L.inv_observe h.inv r o i g
    rw [ho] at hinv
    obtain ⟨z, c, c', g1, hz, hc, hoc, harr, hcase⟩ := RowMix.observe_ok LR h (hG m h) hw ho
    have hxs : AI.observe r (only (AI.outputs m.array) o) [(R.x m.array, z)] (m.array, g1) =
        (.ok (), (m'.array, g')) := by
      rw [LR.observe _ _ _ _ _ _ h.inv.2.1 hc, hoc, harr]
    have hattr := LA.observe_attrs r (only (AI.outputs m.array) o) [(R.x m.array, z)] m.array g1
      h.inv.2.1
    rw [hxs] at hattr
    have hout : AI.outputs m'.array = AI.outputs m.array := congrArg Prod.fst hattr
    have hinp : AI.inputs m'.array = AI.inputs m.array := congrArg (fun x => x.2.1) hattr
    have hattr' := L0.observe_attrs r (only (AI.outputs m.array) o) [] c g1
      (LR.get_inv _ _ _ h.inv.2.1 hc)
    rw [hoc] at hattr'
    have hout' : I.outputs c' = I.outputs c := congrArg Prod.fst hattr'
    obtain ⟨k1, k2, k3, k4, k5, k6, k7⟩ := K.observe _ _ _ _ _ _ _ (h.comp z c hc).1 (hw.only _) hoc
    have hget : ∀ k, R.get m'.array k = if k = z then some c' else R.get m.array k := fun k => by
      rw [harr]; exact Arr.get_after LR hc _
    have hdo : m'.rowDivide.outputs = m.rowDivide.outputs ∧ m'.rowDivide.inputs = m.rowDivide.inputs ∧
        m'.rowDivide.kind = m.rowDivide.kind := by
      rcases hcase with ⟨-, e, -⟩ | ⟨-, -, -, e, -⟩ <;> rw [e]
      · exact ⟨rfl, rfl, rfl⟩
      · exact ⟨Prim.outputs_add .., Prim.inputs_add .., Prim.kind_add ..⟩
    have hx : m'.indexer = m.indexer := by rw [RowMix.indexer, hdo.1]; rfl
    have hr2c : ∀ r', Dict.get? m'.rowidToComponent r' =
        if r = r' then some z else Dict.get? m.rowidToComponent r' := by
      intro r'
      rcases hcase with ⟨e0, -, e⟩ | ⟨-, -, -, -, e⟩ <;> rw [e]
      · split
        · next h => rw [← h, e0]
        · rfl
      · rw [Dict.get?_set]
    have hdata : ∀ r', Dict.get? m'.rowDivide.data r' =
        if r = r' then some z else Dict.get? m.rowidToComponent r' := by
      intro r'
      rcases hcase with ⟨e0, e, -⟩ | ⟨-, el, -, e, -⟩ <;> rw [e]
      · rw [h.data]
        split
        · next h => rw [← h, e0]
        · rfl
      · rw [Prim.data_add el, Dict.get?_set, h.stored hz, h.data]
    have hidx : ∀ r', Dict.get? (R.idx m'.array) r' =
        if r = r' then some z else Dict.get? m.rowidToComponent r' := by
      intro r'
      rw [harr, LR.idx_setIdx, Dict.get?_set, h.idx]
    have hne : Dict.get? m.rowidToComponent r ≠ none → Dict.get? m.rowidToComponent r = some z := by
      rcases hcase with ⟨e0, -, -⟩ | ⟨e0, -⟩
      · exact fun _ => e0
      · exact fun hh => absurd e0 hh
    -- nothing is held for the row outside cluster `z`
    have hcell : ∀ v, v ≠ m.indexer → (rowMixTab AI I MA X R Z T).cell m r v = T.cell c r v := by
      intro v hv
      simp only [rowMixTab, if_neg hv]
      rcases hn : Dict.get? m.rowidToComponent r with _ | z'
      · exact (h.fresh r z c hc (by rw [hn]; simp) v).symm
      · have := hne (by rw [hn]; simp)
        rw [hn] at this
        cases this
        simp [hc]
    have hcell' : ∀ v, v ≠ m.indexer → (rowMixTab AI I MA X R Z T).cell m' r v = T.cell c' r v := by
      intro v hv
      simp only [rowMixTab, hx, if_neg hv, hr2c, if_true, Option.bind_some, hget]
    refine ⟨{ inv := hinv, inputs := hdo.2.1.trans h.inputs, divides := ?_, x_eq := ?_,
              x_mem := hx ▸ h.x_mem, x_out := by rw [hx, hout]; exact h.x_out
              inputsX := ?_, nodup := by rw [hout]; exact h.nodup, comp := ?_
              data := fun r' => (hdata r').trans (hr2c r').symm
              idx := fun r' => (hidx r').trans (hr2c r').symm, books := ?_, fresh := ?_ },
            ?_, ?_, ?_, ?_, ?_, ?_⟩
    · unfold Divides; rw [hdo.2.2]; exact h.divides
    · rw [harr, LR.x_setIdx, LR.x_put, h.x_eq, hx]
    · rw [RowMix.inputsX, hinp]; exact h.inputsX
    · intro k d hd
      rw [hget] at hd
      split at hd
      · cases hd
        exact ⟨k1, by rw [hout, hout']; exact (h.comp z c hc).2⟩
      · rw [hout]; exact h.comp k d hd
    · intro r' z' hz'
      rw [hr2c] at hz'
      split at hz'
      · next hrr =>
        cases hz'
        subst hrr
        exact ⟨hz, c', by rw [hget, if_pos rfl], k2⟩
      · next hrr =>
        obtain ⟨e1, d, e2, e3⟩ := h.books r' z' hz'
        refine ⟨e1, ?_⟩
        rw [hget]
        split
        · next hzz =>
          subst hzz
          rw [hc] at e2
          cases e2
          exact ⟨c', rfl, (k3 r' (Ne.symm hrr)).2 e3⟩
        · exact ⟨d, e2, e3⟩
    · intro r' k d hd hk v
      rw [hr2c] at hk
      rw [hget] at hd
      split at hd
      · next hkz =>
        cases hd
        by_cases hrr : r = r'
        · rw [if_pos hrr, hkz] at hk; exact absurd rfl hk
        · rw [if_neg hrr] at hk
          rw [k4 r' v (Ne.symm hrr)]
          exact h.fresh r' z c hc (hkz ▸ hk) v
      · next hkz =>
        refine h.fresh r' k d hd ?_ v
        by_cases hrr : r = r'
        · subst hrr
          intro hh
          have := hne (by rw [hh]; simp)
          rw [this] at hh
          exact hkz (Option.some.inj hh).symm
        · rwa [if_neg hrr] at hk
    · simp [rowMixTab, hr2c]
    · intro r' hr'
      simp [rowMixTab, hr2c, Ne.symm hr']
    · intro r' v hr'
      simp only [rowMixTab, hx, hr2c, if_neg (Ne.symm hr')]
      split
      · rfl
      · rcases hn : Dict.get? m.rowidToComponent r' with _ | z'
        · rfl
        · simp only [Option.bind_some, hget]
          split
          · next hzz =>
            subst hzz
            simp only [hc, Option.bind_some]
            exact k4 r' v hr'
          · rfl
    · intro v x hv
      by_cases hvx : v = m.indexer
      · simp only [rowMixTab, hx, if_pos hvx, hr2c, if_true] at hv ⊢
        rw [← hne (by rw [hv]; simp), hv]
      · rw [hcell v hvx] at hv
        rw [hcell' v hvx]
        exact k5 v x hv
    · intro v hv x hn hg
      by_cases hvx : v = m.indexer
      · simp only [rowMixTab, hx, if_pos hvx, hr2c, if_true] at hn ⊢
        rcases hcase with ⟨e0, -⟩ | ⟨-, -, e, -⟩
        · rw [e0] at hn; cases hn
        · rw [e x (hvx ▸ hg)]
      · rw [hcell v hvx] at hn
        rw [hcell' v hvx]
        change v ∈ m.rowDivide.outputs ++ AI.outputs m.array at hv
        rw [h.out] at hv
        simp only [List.singleton_append, List.mem_cons, hvx, false_or] at hv
        refine k6 v ((h.comp z c hc).2 ▸ hv) x hn ?_
        rw [get?_only, if_pos hv, hg]
    · intro v hv hn hg
      have hvx : v ≠ m.indexer := fun e => hv (e ▸ h.x_mem)
      rw [hcell v hvx] at hn
      rw [hcell' v hvx]
      refine k7 v hv hn ?_
      rw [get?_only, hg]; simp
  unobserve m r g h hp := by
    obtain ⟨z, hz⟩ := Option.ne_none_iff_exists'.1 hp
    have hinv := L.inv_unobserve h.inv r g
    obtain ⟨c, c', ob, hc, hoc, hu, k1, k2, k3, k4, k5, k6⟩ := RowMix.unobserve_ok LR K h hz g
    have hu' : (rowMixI AI toM fromM).unobserve r (m, g) = _ := hu
    rw [hu'] at hinv
    have hattr := LA.unobserve_attrs r m.array g h.inv.2.1
    rw [LR.unobserve _ _ _ _ _ h.inv.2.1 ((h.idx r).trans hz) hc, hoc] at hattr
    dsimp only at hattr
    have hattr' := L0.unobserve_attrs r c g (LR.get_inv _ _ _ h.inv.2.1 hc)
    rw [hoc] at hattr'
    have hout' : I.outputs c' = I.outputs c := congrArg Prod.fst hattr'
    set a' := R.put (R.setIdx m.array (Dict.del (R.idx m.array) r)) z c' with ha'
    have hout : AI.outputs a' = AI.outputs m.array := congrArg Prod.fst hattr
    have hinp : AI.inputs a' = AI.inputs m.array := congrArg (fun x => x.2.1) hattr
    have hget : ∀ k, R.get a' k = if k = z then some c' else R.get m.array k := fun k => by
      rw [ha', LR.get_put _ _ _ _ _ (by rw [LR.get_setIdx]; exact hc), LR.get_setIdx]
    have hx : ∀ d, (⟨m.rowDivide.remove r z, a', d⟩ : RowMix A).indexer = m.indexer := by
      intro d
      simp only [RowMix.indexer, Prim.outputs_remove]
    have hr2c : ∀ r', Dict.get? (Dict.del m.rowidToComponent r) r' =
        if r = r' then none else Dict.get? m.rowidToComponent r' := fun r' =>
      Dict.get?_del _ h.inv.2.2.1 _ _
    refine ⟨_, _, hu', { inv := hinv, inputs := (Prim.inputs_remove ..).trans h.inputs
                         divides := ?_, x_eq := ?_, x_mem := ?_, x_out := ?_, inputsX := ?_
                         nodup := hout ▸ h.nodup, comp := ?_, data := ?_, idx := ?_, books := ?_
                         fresh := ?_ }, nodup_merged _ _, ?_, ?_, ?_, ?_⟩
    · unfold Divides; rw [Prim.kind_remove]; exact h.divides
    · rw [hx, ← h.x_eq, ha', LR.x_put, LR.x_setIdx]
    · rw [hx]; exact h.x_mem
    · rw [hx, hout]; exact h.x_out
    · rw [RowMix.inputsX, hinp]; exact h.inputsX
    · intro k d hd
      rw [hget] at hd
      split at hd
      · cases hd
        exact ⟨k1, by rw [hout, hout']; exact (h.comp z c hc).2⟩
      · rw [hout]; exact h.comp k d hd
    · intro r'
      rw [hr2c, Prim.data_remove ((h.data r).trans hz), Dict.get?_del _ h.inv.1.1.nodup, h.data]
    · intro r'
      rw [hr2c, ha', LR.idx_put, LR.idx_setIdx, Dict.get?_del _ (LR.idx_nodup _ h.inv.2.1), h.idx]
    · intro r' z' hz'
      rw [hr2c] at hz'
      split at hz'
      · cases hz'
      · next hrr =>
        obtain ⟨e1, d, e2, e3⟩ := h.books r' z' hz'
        refine ⟨e1, ?_⟩
        rw [hget]
        split
        · next hzz =>
          subst hzz
          rw [hc] at e2
          cases e2
          exact ⟨c', rfl, (k6 r' (Ne.symm hrr)).2 e3⟩
        · exact ⟨d, e2, e3⟩
    · intro r' k d hd hk v
      rw [hr2c] at hk
      rw [hget] at hd
      by_cases hrr : r = r'
      · subst hrr
        split at hd
        · cases hd
          exact k4 v
        · next hkz =>
          refine h.fresh r k d hd ?_ v
          rw [hz]
          exact fun hh => hkz (Option.some.inj hh).symm
      · rw [if_neg hrr] at hk
        split at hd
        · next hkz =>
          cases hd
          rw [k5 r' v (Ne.symm hrr)]
          exact h.fresh r' z c hc (hkz ▸ hk) v
        · exact h.fresh r' k d hd hk v
    · intro v
      rw [get?_merged _ _ (by simp [Dict.keys]) k2, k3]
      have hz' := h.comp z c hc
      simp only [rowMixTab, hz, hc, Option.bind_some]
      by_cases hv : v = m.indexer
      · rw [K.cell_out c r v hz'.1 (by rw [hz'.2, hv]; exact h.x_out)]
        simp [Dict.get?, hv]
      · rw [if_neg hv]
        rcases T.cell c r v with _ | x
        · simp [Dict.get?, Ne.symm hv]
        · rfl
    · intro v
      simp only [rowMixTab, hr2c, if_true, Option.bind_none, ite_self]
    · intro r' v hr'
      simp only [rowMixTab, hx, hr2c, if_neg (Ne.symm hr')]
      split
      · rfl
      · rcases hn : Dict.get? m.rowidToComponent r' with _ | z'
        · rfl
        · simp only [Option.bind_some, hget]
          split
          · next hzz =>
            subst hzz
            simp only [hc, Option.bind_some]
            exact k5 r' v hr'
          · rfl
    · intro r' hr'
      simp [rowMixTab, hr2c, Ne.symm hr']
  unobserve_absent m r g h hp := by
    simp only [rowMixTab, ne_eq, not_not] at hp
    exact RowMix.unobserve_absent h hp g
  unobserve_fresh m r g h hf := by
    obtain ⟨e, he⟩ := RowMix.unobserve_absent h (MixReg.fresh_iff hf) g
    change (rowMixSem MA X).E m (RowMix.unobserve AI r (m, g)).2.1
    rw [he]
    exact L.refl m h.inv
  inverse m r o i g m' g' g'' h hf hw ho := by
    have hn := MixReg.fresh_iff hf
    have hinv := L.inv_observe h.inv r o i g
    rw [ho] at hinv
    obtain ⟨z, c, c', g1, hz, hc, hoc, harr, hcase⟩ := RowMix.observe_ok LR h (hG m h) hw ho
    rcases hcase with ⟨e0, -⟩ | ⟨-, hl, -, hdiv, hr2c⟩
    · rw [hn] at e0; cases e0
    have hrd : r ∉ Dict.keys m.rowDivide.data := by
      rw [← Dict.get?_eq_none_iff]; exact (h.data r).trans hn
    have hrx : r ∉ Dict.keys (R.idx m.array) := by
      rw [← Dict.get?_eq_none_iff]; exact (h.idx r).trans hn
    have hd : Dict.get? m'.rowDivide.data r = some z := by
      rw [hdiv, Prim.data_add hl, Dict.get?_set, if_pos rfl, h.stored hz]
    have hout : m'.rowDivide.outputs = [m.indexer] := by
      rw [hdiv, Prim.outputs_add]; exact h.out
    have hi' : Dict.get? (R.idx m'.array) r = some z := by
      rw [harr, LR.idx_setIdx, Dict.get?_set, if_pos rfl]
    have hc' : R.get m'.array z = some c' := by
      rw [harr, Arr.get_after LR hc, if_pos rfl]
    have hinv' := L.inv_unobserve hinv r g''
    have hrm : m'.rowDivide.remove r z = m.rowDivide := by
      have := Prim.remove_add h.inv.1.1 hrd hl
      rwa [h.stored hz, ← hdiv] at this
    have hcf := h.fresh r z c hc (by rw [hn]; simp)
    have hE := K.inverse _ _ _ _ _ _ _ g'' (h.comp z c hc).1 hcf (hw.only _) hoc
    obtain ⟨k1, k2, -⟩ := K.observe _ _ _ _ _ _ _ (h.comp z c hc).1 (hw.only _) hoc
    obtain ⟨ob, c2, hu, -⟩ := K.unobserve c' r g'' k1 k2
    rw [hu] at hE
    have hun : (rowMixI AI toM fromM).unobserve r (m', g'') =
        (.ok (merged [(m.indexer, z)] ob, []),
        (⟨m.rowDivide, R.put (R.setIdx m'.array (Dict.del (R.idx m'.array) r)) z c2,
          Dict.del m'.rowidToComponent r⟩, g'')) := by
      change RowMix.unobserve AI r (m', g'') = _
      unfold RowMix.unobserve
      rw [Py.bind_apply, onDivide_eq, Prim.unobserve_held hinv.1.1 hout hd]
      dsimp only
      rw [Py.bind_apply, onArray_eq, LR.unobserve _ _ _ _ _ hinv.2.1 hi' hc', hu]
      dsimp only
      rw [Py.get_bind]
      dsimp only
      rw [Py.lift_bind, Dict.getItem_ok (v := z) (by rw [hr2c, Dict.get?_set, if_pos rfl]), hrm]
      rfl
    rw [hun] at hinv' ⊢
    refine ⟨⟨primLaws.refl _ h.inv.1, ?_, ?_⟩, h.inv.2.2⟩
    · refine LR.E_intro _ _ h.inv.2.1 hinv'.2.1 ?_ ?_ ?_ ?_
      · refine LR.same_put _ _ _ _ (LR.same_setIdx _ _ _ ?_)
        rw [harr]
        exact LR.same_setIdx _ _ _ (LR.same_put _ _ _ _ (LR.same_refl _ h.inv.2.1))
      · rw [LR.idx_put, LR.idx_setIdx, harr, LR.idx_setIdx, Dict.del_set_of_not_mem _ _ _ hrx]
      · rw [LR.x_put, LR.x_setIdx, harr, LR.x_setIdx, LR.x_put]
      · intro k d hkd
        rw [LR.get_put _ _ _ _ _ (by rw [LR.get_setIdx]; exact hc'), LR.get_setIdx, harr,
          Arr.get_after LR hc]
        split
        · next hk =>
          subst hk
          rw [hc] at hkd; cases hkd
          exact ⟨_, rfl, hE⟩
        · exact ⟨d, hkd, L0.refl _ (LR.get_inv _ _ _ h.inv.2.1 hkd)⟩
    · dsimp only
      rw [hr2c, Dict.del_set_of_not_mem _ _ _ (by rw [← Dict.get?_eq_none_iff]; exact hn)]
  chain m r o i g m' g' x y h hf hw hnd hz ho hy hx := by
    have hn := MixReg.fresh_iff hf
    have hinv := L.inv_observe h.inv r o i g
    rw [ho] at hinv
    obtain ⟨z, c, c', g1, hzw, hc, hoc, harr, hcase⟩ := RowMix.observe_ok LR h (hG m h) hw ho
    rcases hcase with ⟨e0, -⟩ | ⟨-, hl, hzo, hdiv, hr2c⟩
    · rw [hn] at e0; cases e0
    have hrd : r ∉ Dict.keys m.rowDivide.data := by
      rw [← Dict.get?_eq_none_iff]; exact (h.data r).trans hn
    have hoz : Dict.get? o m.indexer = some z := by
      obtain ⟨y, hy⟩ := Option.ne_none_iff_exists'.1 (hz m.indexer h.x_mem (by
        change m.indexer ∈ m.rowDivide.outputs ++ _
        rw [h.out]; simp))
      rw [hy, hzo y hy]
    have hone : o ≠ [] := by rintro rfl; simp [Dict.get?] at hoz
    rw [if_neg hone] at hx
    change (RowMix.logpdf AI r o [] [] (m, g)).1 = _ at hx
    rw [RowMix.logpdf_val LA ⟨primLaws.refl _ h.inv.1, LA.refl _ h.inv.2.1, rfl⟩ hn,
      RowMix.val, hoz] at hx
    dsimp only at hx
    rw [if_neg (by simp), merged_nil_right _ hnd] at hx
    rcases hp : RowMix.priorVal m r [] z with e | lz <;> rw [hp] at hx
    · cases hx
    dsimp only [Except.bind] at hx
    rcases hv : RowMix.compVal AI m g r o [] [] z with e | lx <;> rw [hv] at hx
    · cases hx
    dsimp only [Except.bind] at hx
    obtain ⟨a, b, rfl, rfl, hab⟩ := Fl.add_sub_zero_fin (Except.ok.inj hx)
    have hch : (m.rowDivide.add r z).score = m.rowDivide.score + a := by
      refine Prim.chain h.inv.1 h.out hrd hl ?_
      rw [← hp, RowMix.priorVal]
      rfl
    change RowMix.logpdfScore AI m = _ at hy
    change RowMix.logpdfScore AI m' = _
    unfold RowMix.logpdfScore at hy ⊢
    rw [Prim.logpdfScore_eq h.inv.1.1 h.inv.1.2] at hy
    rw [Prim.logpdfScore_eq hinv.1.1 hinv.1.2, hdiv, hch]
    rcases hya : AI.logpdfScore m.array with e | sa <;> rw [hya] at hy
    · cases hy
    obtain ⟨u, rfl, huy⟩ := Fl.fin_add_fin (Except.ok.inj hy)
    obtain ⟨uc, huc⟩ := LR.scored _ _ _ h.inv.2.1 ⟨u, hya⟩ hc
    have hb : (if only (AI.outputs m.array) o = [] then .ok (.fin 0)
        else (I.logpdf r (only (AI.outputs m.array) o) [] [] (c, g1)).1) = .ok (.fin b) := by
      rw [RowMix.compVal] at hv
      split at hv
      · next hh => rw [if_pos (show only (AI.outputs m.array) o = [] from hh)]; exact hv
      · next hh =>
        rw [if_neg (show ¬ only (AI.outputs m.array) o = [] from hh)]
        have hmm : merged (only (m.outputsX AI) []) [(m.indexer, z)] = [(R.x m.array, z)] := by
          rw [h.x_eq]; rfl
        rw [hmm, show only (m.outputsX AI) [] = [] from rfl, LR.logpdf _ _ _ _ _ _ _ h.inv.2.1 hc] at hv
        rw [← hv]
        exact (L0.logpdf_noDraw _ _ _ _ c g1 g).1
    have hsc := K.chain _ _ _ _ _ _ _ b uc (h.comp z c hc).1 (h.fresh r z c hc (by rw [hn]; simp))
      (hw.only _) (nodup_only _ _ hnd) (fun v hv hv' => by
        rw [(h.comp z c hc).2] at hv'
        rw [get?_only, if_pos hv']
        exact hz v hv (List.mem_append_right _ hv')) hoc huc hb
    have := LR.score m.array z c c' (Dict.set (R.idx m.array) r z) b u uc (uc + b) h.inv.2.1
      (harr ▸ hinv.2.1) hc hya huc hsc rfl
    rw [harr, this]
    simp only [bind, Except.bind, pure, Except.pure, Except.ok.injEq]
    rw [Fl.fin_add_eq]
    congr 1
    rw [← huy, ← hab]
    ring

end

end Cgpm2
