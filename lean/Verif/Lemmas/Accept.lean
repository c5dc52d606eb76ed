import Verif.Lemmas.HeldCells
import Verif.Lemmas.CrpSupport

/-!
# Observations that fit are accepted (helpers)
-/

namespace Cgpm2
open Spec

variable {S : Type}

/-- An observation that fits is accepted for a row of which nothing is held. -/
def AccLaw (I : Iface S) (T : Tab S) (F : S → Dict Var Val → Prop) : Prop :=
  ∀ s r o g, T.Reg s → T.Fresh s r → (Dict.keys o).Nodup → F s o →
    ∃ s' g', I.observe r (only (I.outputs s) o) [] (s, g) = (.ok (), (s', g'))

theorem only_single {v : Var} {x : Val} {o : Dict Var Val} (h : (Dict.keys o).Nodup)
    (hx : Dict.get? o v = some x) : only [v] o = [(v, x)] := by
  induction o with
  | nil => simp at hx
  | cons kv o ih =>
    obtain ⟨k, y⟩ := kv
    rw [Dict.get?_cons] at hx
    have hn := List.nodup_cons.1 h
    by_cases hk : k = v
    · subst hk
      rw [if_pos rfl] at hx
      cases hx
      have : only [k] o = [] := by
        unfold only
        rw [List.filter_eq_nil_iff]
        rintro ⟨k', y⟩ hk'
        simp only [List.mem_singleton, decide_eq_true_eq]
        rintro rfl
        exact hn.1 (List.mem_map.2 ⟨_, hk', rfl⟩)
      unfold only at this ⊢
      rw [List.filter_cons, if_pos (by simp), this]
    · rw [if_neg hk] at hx
      have := ih hn.2 hx
      unfold only at this ⊢
      rw [List.filter_cons, if_neg (by simpa using hk), this]

theorem only_only {l l' : List Var} (h : ∀ v ∈ l', v ∈ l) (o : Dict Var Val) :
    only l' (only l o) = only l' o := by
  unfold only
  rw [List.filter_filter]
  apply List.filter_congr
  intro kv _
  by_cases hk : kv.1 ∈ l'
  · simp [hk, h _ hk]
  · simp [hk]

theorem only_eq_nil {l : List Var} {o : Dict Var Val} (h : ∀ v ∈ l, Dict.get? o v = none) :
    only l o = [] := by
  unfold only
  rw [List.filter_eq_nil_iff]
  rintro ⟨k, y⟩ hk
  simp only [decide_eq_true_eq]
  intro hl
  have := h k hl
  rw [Dict.get?_eq_none_iff] at this
  exact this (List.mem_map.2 ⟨_, hk, rfl⟩)

theorem only_self {l : List Var} {o : Dict Var Val} (h : ∀ v ∈ Dict.keys o, v ∈ l) :
    only l o = o := by
  unfold only
  rw [List.filter_eq_self]
  rintro ⟨k, y⟩ hk
  simpa using h k (List.mem_map.2 ⟨_, hk, rfl⟩)

theorem primAcc (Z : List Var) : AccLaw primI (primTab Z) fun p o =>
    ∃ v x, p.outputs = [v] ∧ Dict.get? o v = some x ∧ Accepts p x := by
  rintro p r o g h hf hn ⟨v, x, hv, hx, ha⟩
  have hr : r ∉ Dict.keys p.data := by
    rw [← Dict.get?_eq_none_iff]
    have := hf v
    simpa [primTab, hv] using this
  refine ⟨p.add r x, g, ?_⟩
  change primI.observe r (only p.outputs o) [] (p, g) = _
  rw [hv, only_single hn hx, primI_observe, Prim.observe_ok hv hr ((Prim.legal_iff h.1.1 x).2 ha)]

theorem Py.each_good {T α : Type} {m : Py (S × T) α} {l : List S} (g : T)
    (h : ∀ s ∈ l, ∀ g, ∃ a s' g', m (s, g) = (.ok a, (s', g'))) :
    ∃ as l' g', Py.each m (l, g) = (.ok as, (l', g')) := by
  induction l generalizing g with
  | nil => exact ⟨[], [], g, rfl⟩
  | cons s l ih =>
    obtain ⟨a, s', g1, h1⟩ := h s (by simp) g
    obtain ⟨as, l', g2, h2⟩ := ih g1 fun s hs => h s (by simp [hs])
    refine ⟨a :: as, s' :: l', g2, ?_⟩
    rw [Py.each_cons, h1]
    dsimp only
    rw [h2]

theorem productAcc {I : Iface S} {M : Sem S} {Z : List Var} {T : Tab S} (K : TLaws I M Z T)
    {F : S → Dict Var Val → Prop} (hF : AccLaw I T F) :
    AccLaw (productI I) (productTab I T) fun p o =>
      ∀ c ∈ p.cgpms, (∀ v ∈ I.outputs c, Dict.get? o v = none) ∨ F c o := by
  intro p r o g h hf hn ho
  obtain ⟨as, l', g', he⟩ := Py.each_good (m := observeOne I r (only (p.outputs I) o) [])
      (l := p.cgpms) g (by
    intro c hc g
    have hcp : ∀ v ∈ I.outputs c, v ∈ p.outputs I := fun v hv => List.mem_flatMap.2 ⟨c, hc, hv⟩
    rw [observeOne_eq, only_only hcp]
    split
    · exact ⟨_, _, _, rfl⟩
    · next hne =>
      rcases ho c hc with h1 | h1
      · exact absurd (only_eq_nil h1) hne
      · have hfc : T.Fresh c r := fun v => ProdTab.cell_none_iff.1 (hf v) c hc
        obtain ⟨s', g', h2⟩ := hF c r o g (h.1 c hc) hfc hn h1
        rw [K.inputs c (h.1 c hc), only_nil, only_nil]
        exact ⟨_, _, _, h2⟩)
  refine ⟨⟨l'⟩, g', ?_⟩
  change Product.observe I r (only (p.outputs I) o) [] (p, g) = _
  unfold Product.observe
  rw [Py.bind_apply]
  unfold Product.each Py.onAttr
  dsimp only
  rw [he]
  rfl

section
variable {A : Type} {AI : Iface A} {I : Iface S} {MA : Sem A} {M : Sem S} {X : Prim → Nat → Prop}
  {R : Arr A S} {Z : List Var} {T : Tab S}

/-- `observe` of a new row with a given cluster, when the component accepts its part. -/
theorem RowMix.observe_accept (LR : ArrLaws AI I MA M R) {m : RowMix A}
    (h : MixReg AI I MA X R Z T m) {r : RowId} (hn : Dict.get? m.rowidToComponent r = none)
    {o : Dict Var Val} {z : Val} (hz : Dict.get? o m.indexer = some z) (hl : m.rowDivide.Legal z)
    {c c' : S} (hc : R.get m.array z = some c) {g g' : Rng} (i : Dict Var Val)
    (hoc : I.observe r (only (AI.outputs m.array) o) [] (c, g) = (.ok (), (c', g'))) :
    RowMix.observe AI r o i (m, g) = (.ok (), (⟨m.rowDivide.add r z,
      R.setIdx (R.put m.array z c') (Dict.set (R.idx m.array) r z),
      Dict.set m.rowidToComponent r z⟩, g')) := by
  have hr : r ∉ Dict.keys m.rowDivide.data := by
    rw [← Dict.get?_eq_none_iff]; exact (h.data r).trans hn
  unfold RowMix.observe
  rw [Py.get_bind]
  dsimp only
  rw [h.inputsX, getIntersection_eq, getIntersection_eq, getIntersection_eq, only_nil,
    show m.inputsZ = [] from h.inputs, only_nil, hn]
  dsimp only
  rw [hz]
  dsimp only
  rw [Py.pure_bind', Py.bind_apply, onDivide_eq, Prim.observe_ok h.out hr hl]
  dsimp only
  rw [Py.lift_bind, Dict.getItem_ok (v := z) (by simp [Dict.get?])]
  dsimp only
  rw [Py.modify_bind]
  dsimp only
  rw [Py.pure_bind', merged_single, onArray_eq]
  dsimp only
  rw [show m.outputsX AI = AI.outputs m.array from rfl, ← h.x_eq,
    LR.observe _ _ _ _ _ _ h.inv.2.1 hc, hoc]

theorem rowMixAcc {toM fromM} (LR : ArrLaws AI I MA M R) {F : S → Dict Var Val → Prop}
    (hF : AccLaw I T F) : AccLaw (rowMixI AI toM fromM) (rowMixTab AI I MA X R Z T) fun m o =>
      ∃ v z c, m.rowDivide.outputs = [v] ∧ Dict.get? o v = some z ∧ m.rowDivide.Legal z ∧
        R.get m.array z = some c ∧ F c o := by
  rintro m r o g h hf hn ⟨v, z, c, hv, hz, hl, hc, hFc⟩
  obtain rfl : v = m.indexer := by simp [RowMix.indexer, hv]
  have hr := MixReg.fresh_iff hf
  obtain ⟨c', g', h1⟩ := hF c r o g (h.comp z c hc).1 (h.fresh r z c hc (by rw [hr]; simp)) hn hFc
  rw [(h.comp z c hc).2] at h1
  change ∃ s' g', RowMix.observe AI r (only (m.rowDivide.outputs ++ AI.outputs m.array) o) []
    (m, g) = _
  refine ⟨_, _, RowMix.observe_accept LR h hr ?_ hl hc _ (c' := c') (g' := g') ?_⟩
  · rw [get?_only, if_pos (by rw [hv]; simp), hz]
  · rw [only_only (fun v hv => List.mem_append_right _ hv), h1]

end

theorem fits_acc (Z : List Var) : (n : Nat) → AccLaw (cgpmI n) (cgpmTab Z n) (Fits n)
  | 0 => primAcc Z
  | n + 1 => by
    intro s r o g h hf hn ho
    have ih := fits_acc Z n
    have K := cgpmTLaws Z n
    have L := cgpmLaws n
    cases s with
    | prim p =>
      obtain ⟨s', g', h1⟩ := primAcc Z p r o g h hf hn ho
      exact ⟨.prim s', g', inside_eq h1⟩
    | product p =>
      obtain ⟨s', g', h1⟩ := productAcc K ih p r o g h hf hn ho
      exact ⟨.product s', g', inside_eq h1⟩
    | finArray p => exact h.elim
    | flexArray p => exact h.elim
    | finMix m =>
      obtain ⟨v, k, c, h1, h2, h3, h4⟩ := ho
      have hm : MixReg _ _ _ _ _ _ _ m := h
      have hX := hm.inv.2.2.2
      have hlen : k < m.array.cgpms.length := (List.getElem?_eq_some_iff.1 h3).1
      obtain ⟨s', g', h5⟩ := rowMixAcc (toM := FinMix.toMetadata (cgpmI n))
        (fromM := FinMix.fromMetadata (cgpmI n)) (finArrLaws (cgpmI n) (cgpmSem n)) ih m r o g h hf hn
        ⟨v, _, c, h1, h2, finX_legal hX
        (by simpa [finArraySem, Shape.count] using hlen), by simp [finArr, natIndex_nat, h3], h4⟩
      exact ⟨.finMix s', g', inside_eq h5⟩
    | flexMix m =>
      obtain ⟨v, k, h1, h2, h3, h4⟩ := ho
      have hm : MixReg _ _ _ _ _ _ _ m := h
      obtain ⟨b1, b2, b3⟩ := flexMix_base L K hm
      have hl := (Prim.legal_iff hm.inv.1.1 _).2 h3
      have hrn : Dict.get? m.rowidToComponent r = none :=
        MixReg.fresh_iff (AI := flexArrayI (cgpmI n)) (I := cgpmI n)
          (MA := flexArraySem (cgpmI n) (cgpmSem n)) (X := fun _ _ => True) (Z := Z)
          (T := cgpmTab Z n) (R := flexArr (cgpmSem n)) hf
      obtain rfl : v = m.indexer := by simp [RowMix.indexer, h1]
      obtain ⟨c', g', h5⟩ : ∃ c' g', (cgpmI n).observe r
          (only ((flexArrayI (cgpmI n)).outputs m.array) o) []
          (m.array.comp (cgpmSem n) (.num k), g) = (.ok (), (c', g')) := by
        have hout := (hm.comp (.num k) _ rfl).2
        rw [← hout]
        have hc := hm.comp (.num k) _ rfl
        unfold FlexArray.comp at hc hout ⊢
        rcases hk : Dict.get? m.array.cgpms (.num k) with _ | c
        · rw [hk] at h4 hc hout
          simp only [Option.getD_none] at h4 ⊢
          obtain ⟨s', g', h5⟩ := ih _ r o g b1 (b3 r) hn h4
          obtain ⟨e1, -, e3⟩ := L.observe r (only ((cgpmI n).outputs m.array.base) o) [] _ _ g b2
          rw [h5] at e1 e3
          rw [← L.outputs_E b2]
          refine ⟨((cgpmI n).observe r (only ((cgpmI n).outputs m.array.base) o) []
            ((cgpmSem n).strip m.array.base, g)).2.1, g', ?_⟩
          exact Prod.ext e1.symm (Prod.ext rfl e3.symm)
        · rw [hk] at h4
          simp only [Option.getD_some] at h4 ⊢
          have hg : (flexArr (cgpmSem n)).get m.array (.num k) = some c := by
            simp [flexArr, FlexArray.comp, hk]
          exact ih c r o g (hm.comp _ _ hg).1 (hm.fresh r _ _ hg (by rw [hrn]; simp)) hn h4
      change ∃ s' g', Py.inside Node.flexMix (RowMix.observe (flexArrayI (cgpmI n)) r
        (only (m.rowDivide.outputs ++ (flexArrayI (cgpmI n)).outputs m.array) o) []) (m, g) = (.ok (), (s', g'))
      refine ⟨_, _, inside_eq (RowMix.observe_accept (flexArrLaws L) hm hrn (z := .num k) ?_ hl rfl _
        (c' := c') (g' := g') ?_)⟩
      · rw [get?_only, if_pos (by rw [h1]; simp), h2]
      · rw [only_only (fun v hv => List.mem_append_right _ hv), h5]

end Cgpm2
