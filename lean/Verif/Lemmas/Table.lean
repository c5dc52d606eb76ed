import Verif.Lemmas.ProductLaws
import Verif.Lemmas.PrimLaws
import Verif.Lemmas.Arr
import Verif.Spec.Composite

/-!
# Every class holds a table of cells (helpers)

`Tab` gives, for a class `S`, the cell held for a row and a variable, and the states in which
the books of all mixtures agree (`Reg`).  `TLaws` says how observe and unobserve act on cells.
`Z` is the list of cluster variables, whose values are whole numbers.
-/

namespace Cgpm2
open Spec

structure Tab (S : Type) where
  Reg : S → Prop
  cell : S → RowId → Var → Option Val
  /-- unobserve of the row will succeed -/
  present : S → RowId → Prop

variable {S : Type}

/-- Nothing is held for the row. -/
def Tab.Fresh (T : Tab S) (s : S) (r : RowId) : Prop := ∀ v, T.cell s r v = none

/-- Cluster variables are given whole-number values. -/
def Whole (Z : List Var) (o : Dict Var Val) : Prop :=
  ∀ v ∈ Z, ∀ x, Dict.get? o v = some x → ∃ k : Int, x = .num (k : ℚ)

theorem get?_only (l : List Var) (d : Dict Var Val) (v : Var) :
    Dict.get? (only l d) v = if v ∈ l then Dict.get? d v else none := by
  unfold only
  induction d with
  | nil => simp
  | cons kv d ih =>
    obtain ⟨k, x⟩ := kv
    rw [List.filter_cons, Dict.get?_cons]
    by_cases hk : k ∈ l
    · simp only [hk, decide_true, if_true]
      rw [Dict.get?_cons]
      by_cases h : k = v
      · subst h; simp [hk]
      · simp only [h, if_false]; exact ih
    · simp only [hk, decide_false, Bool.false_eq_true, if_false]
      rw [ih]
      by_cases h : k = v
      · subst h; simp [hk]
      · simp only [h, if_false]

theorem nodup_update' {K V : Type} [DecidableEq K] (d e : Dict K V) (h : (Dict.keys d).Nodup) :
    (Dict.keys (Dict.update d e)).Nodup := by
  induction e generalizing d with
  | nil => exact h
  | cons kv e ih => rw [Dict.update_cons]; exact ih _ (Dict.nodup_keys_set _ _ _ h)

theorem nodup_only (l : List Var) (d : Dict Var Val) (h : (Dict.keys d).Nodup) :
    (Dict.keys (only l d)).Nodup :=
  h.sublist (List.filter_sublist.map _)

theorem getIntersection_eq (l : List Var) (d : Dict Var Val) : getIntersection l d = only l d := rfl

theorem only_nil (d : Dict Var Val) : only [] d = [] := by
  unfold only; simp

theorem Whole.only {Z : List Var} {o : Dict Var Val} (h : Whole Z o) (l : List Var) :
    Whole Z (only l o) := by
  intro v hv x hx
  rw [get?_only] at hx
  split at hx
  · exact h v hv x hx
  · cases hx

structure TLaws (I : Iface S) (M : Sem S) (Z : List Var) (T : Tab S) : Prop where
  inv : ∀ s, T.Reg s → M.Inv s
  inputs : ∀ s, T.Reg s → I.inputs s = []
  nodup : ∀ s, T.Reg s → (I.outputs s).Nodup
  reg_E : ∀ s s', M.E s s' → T.Reg s → T.Reg s'
  cell_E : ∀ s s', M.E s s' → T.Reg s → T.cell s = T.cell s'
  present_E : ∀ s s' r, M.E s s' → T.Reg s → (T.present s r ↔ T.present s' r)
  cell_out : ∀ s r v, T.Reg s → v ∉ I.outputs s → T.cell s r v = none
  present_cell : ∀ s r v, T.Reg s → T.cell s r v ≠ none → T.present s r
  whole : ∀ s r v x, T.Reg s → v ∈ Z → T.cell s r v = some x → ∃ k : Int, x = .num (k : ℚ)
  observe : ∀ s r o i g s' g', T.Reg s → Whole Z o → I.observe r o i (s, g) = (.ok (), (s', g')) →
    T.Reg s' ∧ T.present s' r ∧ (∀ r', r' ≠ r → (T.present s' r' ↔ T.present s r')) ∧
    (∀ r' v, r' ≠ r → T.cell s' r' v = T.cell s r' v) ∧
    (∀ v x, T.cell s r v = some x → T.cell s' r v = some x) ∧
    (∀ v ∈ I.outputs s, ∀ x, T.cell s r v = none → Dict.get? o v = some x →
      T.cell s' r v = some x) ∧
    (∀ v, v ∉ Z → T.cell s r v = none → Dict.get? o v = none → T.cell s' r v = none)
  unobserve : ∀ s r g, T.Reg s → T.present s r → ∃ ob s',
    I.unobserve r (s, g) = (.ok (ob, []), (s', g)) ∧ T.Reg s' ∧ (Dict.keys ob).Nodup ∧
    (∀ v, Dict.get? ob v = T.cell s r v) ∧ (∀ v, T.cell s' r v = none) ∧
    (∀ r' v, r' ≠ r → T.cell s' r' v = T.cell s r' v) ∧
    (∀ r', r' ≠ r → (T.present s' r' ↔ T.present s r'))
  unobserve_absent : ∀ s r g, T.Reg s → ¬ T.present s r →
    ∃ e, I.unobserve r (s, g) = (.error e, (s, g))
  unobserve_fresh : ∀ s r g, T.Reg s → T.Fresh s r → M.E s (I.unobserve r (s, g)).2.1
  inverse : ∀ s r o i g s' g' g'', T.Reg s → T.Fresh s r → Whole Z o →
    I.observe r o i (s, g) = (.ok (), (s', g')) → M.E s (I.unobserve r (s', g'')).2.1
  chain : ∀ s r o i g s' g' x y, T.Reg s → T.Fresh s r → Whole Z o →
    (Dict.keys o).Nodup → (∀ v ∈ Z, v ∈ I.outputs s → Dict.get? o v ≠ none) →
    I.observe r o i (s, g) = (.ok (), (s', g')) → I.logpdfScore s = .ok (.fin y) →
    (if o = [] then .ok (.fin 0) else (I.logpdf r o [] [] (s, g)).1) = .ok (.fin x) →
    I.logpdfScore s' = .ok (.fin (y + x))

/-! ## Primitives -/

/-- The table held by a primitive. -/
def primTab (Z : List Var) : Tab Prim where
  Reg p := p.Good ∧ p.inputs = [] ∧ (p.kind = .crp → ∀ v ∈ p.outputs, v ∈ Z) ∧
    (∀ v ∈ p.outputs, v ∈ Z → ∀ r x, Dict.get? p.data r = some x → ∃ k : Int, x = .num (k : ℚ))
  cell p r v := if v ∈ p.outputs then Dict.get? p.data r else none
  present p r := r ∈ Dict.keys p.data

theorem Prim.E_data {p q : Prim} (h : primSem.E p q) : p.data = q.data := by
  have := congrArg Prim.data h.2.2
  simpa only [Prim.clear_data] using this

theorem Prim.E_kind {p q : Prim} (h : primSem.E p q) : p.kind = q.kind := by
  have := congrArg Prim.kind h.2.2
  simpa only [Prim.clear_kind] using this

theorem Prim.Legal.stored {p : Prim} {v : Val} (h : p.kind = .crp → ∃ k : Int, v = .num (k : ℚ)) :
    p.stored v = v := by
  cases p with
  | crp c =>
    obtain ⟨k, rfl⟩ := h rfl
    simp only [Prim.stored, truncate_intCast]
  | _ => rfl

theorem Prim.kind_add (p : Prim) (r : RowId) (v : Val) : (p.add r v).kind = p.kind := by
  cases p <;> cases v <;> rfl

theorem Prim.kind_remove (p : Prim) (r : RowId) (v : Val) : (p.remove r v).kind = p.kind := by
  cases p <;> cases v <;> rfl

theorem Prim.logpdf_nan_fin {p : Prim} {o : Var} (ho : p.outputs = [o]) {r : RowId}
    (hr : r ∉ Dict.keys p.data) {x : ℝ} (h : p.logpdf r [(o, .nan)] [] [] = .ok (.fin x)) :
    x = 0 := by
  cases p with
  | crp c =>
    have := Crp.logpdf_nan (c := c) r ho
    change Crp.logpdf c r [(o, .nan)] [] [] = _ at h
    rw [this] at h; cases h
  | categorical c =>
    change Categorical.logpdf c r _ _ _ = _ at h
    rw [Categorical.logpdf_nan ho hr] at h; cases h; rfl
  | bernoulli c =>
    change Bernoulli.logpdf c r _ _ _ = _ at h
    rw [Bernoulli.logpdf_nan ho hr] at h; cases h
  | normal c =>
    change Normal.logpdf c r _ _ _ = _ at h
    rw [Normal.logpdf_nan ho hr] at h; cases h; rfl
  | normalUC c =>
    change NormalUC.logpdf c r _ _ _ = _ at h
    rw [NormalUC.logpdf_nan ho hr] at h; cases h; rfl
  | poisson c =>
    change Poisson.logpdf c r _ _ _ = _ at h
    rw [Poisson.logpdf_nan ho hr] at h; cases h

theorem Prim.chain {p : Prim} (h : p.Good) {o : Var} (ho : p.outputs = [o]) {r : RowId}
    (hr : r ∉ Dict.keys p.data) {v : Val} (hv : p.Legal v) {x : ℝ}
    (hx : p.logpdf r [(o, v)] [] [] = .ok (.fin x)) : (p.add r v).score = p.score + x := by
  rcases v with _ | q
  · rw [Prim.score_add_nan hr hv, Prim.logpdf_nan_fin ho hr hx, add_zero]
  · obtain ⟨y, hy, hs⟩ := Prim.pred_legal h.1 h.2 hr hv
    rw [Prim.logpdf_num h.1 h.2 ho hr, hy] at hx
    cases hx
    exact hs

theorem primI_observe (p : Prim) (r o i g) :
    primI.observe r o i (p, g) = ((p.observe r o i).1, ((p.observe r o i).2, g)) := rfl
theorem primI_unobserve (p : Prim) (r g) :
    primI.unobserve r (p, g) = ((p.unobserve r).1, ((p.unobserve r).2, g)) := rfl
theorem primI_logpdf (p : Prim) (r t c i g) :
    primI.logpdf r t c i (p, g) = (p.logpdf r t c i, (p, g)) := rfl

theorem primTLaws (Z : List Var) : TLaws primI primSem Z (primTab Z) where
  inv _ h := h.1
  inputs _ h := h.2.1
  nodup p h := by
    obtain ⟨o, ho⟩ := Prim.Inv.out h.1.1
    change p.outputs.Nodup
    rw [ho]; simp
  reg_E p q h hp := by
    have h1 : p.outputs = q.outputs := primLaws.outputs_E h
    have h2 : p.inputs = q.inputs := primLaws.inputs_E h
    exact ⟨h.2.1, h2 ▸ hp.2.1, by rw [← Prim.E_kind h, ← h1]; exact hp.2.2.1,
      by rw [← Prim.E_data h, ← h1]; exact hp.2.2.2⟩
  cell_E p q h hp := by
    have h1 : p.outputs = q.outputs := primLaws.outputs_E h
    funext r v
    simp only [primTab, h1, Prim.E_data h]
  present_E p q r h hp := by simp only [primTab, Prim.E_data h]
  cell_out p r v h hv := if_neg hv
  present_cell p r v h hv := by
    simp only [primTab] at hv ⊢
    split at hv
    · rw [← not_not (a := r ∈ _), ← Dict.get?_eq_none_iff]; exact hv
    · exact absurd rfl hv
  whole p r v x h hv hx := by
    simp only [primTab] at hx
    split at hx
    · next hm => exact h.2.2.2 v hm hv r x hx
    · cases hx
  observe p r o i g p' g' h hw ho := by
    obtain ⟨v, hv⟩ := Prim.Inv.out h.1.1
    rw [primI_observe] at ho
    rcases Prim.observe_cases hv r o i with ⟨e, he⟩ | ⟨x, rfl, rfl, h1, h2, h3⟩
    · rw [he] at ho; cases ho
    · have hst : p.stored x = x := by
        refine Prim.Legal.stored fun hk => hw v (h.2.2.1 hk v (by simp [hv])) x (by simp [Dict.get?])
      have hd : (p.add r x).data = Dict.set p.data r x := by rw [Prim.data_add h2, hst]
      rw [h3] at ho
      simp only [Prod.mk.injEq] at ho
      obtain ⟨-, rfl, rfl⟩ := ho
      have hout : (p.add r x).outputs = p.outputs := Prim.outputs_add ..
      have hgood : (p.add r x).Good := ⟨Prim.inv_add h.1.1 h1 h2, (Prim.legalHypers_add ..).2 h.1.2⟩
      refine ⟨⟨hgood, (Prim.inputs_add ..).trans h.2.1, ?_, ?_⟩, ?_, ?_, ?_, ?_, ?_, ?_⟩
      · rw [hout]
        intro hk
        exact h.2.2.1 ((Prim.kind_add ..).symm.trans hk)
      · rw [hout, hd]
        intro v' hv' hz r' x' hx'
        rw [Dict.get?_set] at hx'
        split at hx'
        · cases hx'
          rw [hv] at hv'
          obtain rfl := List.mem_singleton.1 hv'
          exact hw v' hz x (by simp [Dict.get?])
        · exact h.2.2.2 v' hv' hz r' x' hx'
      · simp only [primTab, hd, Dict.mem_keys_set]; tauto
      · intro r' hr'
        simp only [primTab, hd, Dict.mem_keys_set]; tauto
      · intro r' v' hr'
        simp only [primTab, hd, hout, Dict.get?_set, if_neg (Ne.symm hr')]
      · intro v' x' hx'
        simp only [primTab] at hx'
        split at hx'
        · exact absurd (Dict.mem_keys_of_get? hx') h1
        · cases hx'
      · intro v' hv' x' _ hx'
        change v' ∈ p.outputs at hv'
        rw [hv] at hv'
        obtain rfl := List.mem_singleton.1 hv'
        simp only [primTab, hd, hout, hv, Dict.get?_set]
        simpa [Dict.get?] using hx'
      · intro v' _ _ hx'
        simp only [primTab, hd, hout, hv]
        rw [if_neg]
        intro hm
        obtain rfl := List.mem_singleton.1 hm
        simp [Dict.get?] at hx'
  unobserve p r g h hr := by
    obtain ⟨o, ho⟩ := Prim.Inv.out h.1.1
    obtain ⟨x, hx⟩ := Dict.exists_get?_of_mem_keys hr
    have hu := Prim.unobserve_held h.1.1 ho hx
    have hd := Prim.data_remove hx
    have hout : (p.remove r x).outputs = p.outputs := Prim.outputs_remove ..
    have hn := Prim.Inv.nodup h.1.1
    refine ⟨[(o, x)], p.remove r x, by rw [primI_unobserve, hu], ⟨⟨Prim.inv_remove h.1.1 hx,
      (Prim.legalHypers_remove ..).2 h.1.2⟩, (Prim.inputs_remove ..).trans h.2.1, ?_, ?_⟩,
      by simp [Dict.keys], ?_, ?_, ?_, ?_⟩
    · rw [hout]
      intro hk
      exact h.2.2.1 ((Prim.kind_remove ..).symm.trans hk)
    · rw [hout, hd]
      intro v' hv' hz r' x' hx'
      rw [Dict.get?_del _ hn] at hx'
      split at hx'
      · cases hx'
      · exact h.2.2.2 v' hv' hz r' x' hx'
    · intro v
      simp only [primTab, ho, Dict.get?, hx, List.mem_singleton]
      by_cases hov : o = v
      · simp [hov]
      · simp [hov, Ne.symm hov]
    · intro v
      simp only [primTab, hd, Dict.get?_del _ hn]
      simp
    · intro r' v hr'
      simp only [primTab, hd, hout, Dict.get?_del _ hn, if_neg (Ne.symm hr')]
    · intro r' hr'
      simp only [primTab, hd, Dict.mem_keys_del _ hn]; tauto
  unobserve_absent p r g h hr := by
    exact ⟨_, by rw [primI_unobserve, Prim.unobserve_absent hr]⟩
  unobserve_fresh p r g h hr := by
    obtain ⟨o, ho⟩ := Prim.Inv.out h.1.1
    have : r ∉ Dict.keys p.data := by
      rw [← Dict.get?_eq_none_iff]
      have := hr o
      simpa [primTab, ho] using this
    rw [primI_unobserve, Prim.unobserve_absent this]
    exact primLaws.refl p h.1
  inverse p r o i g p' g' g'' h hr hw ho := by
    obtain ⟨v, hv⟩ := Prim.Inv.out h.1.1
    rw [primI_observe] at ho
    rcases Prim.observe_cases hv r o i with ⟨e, he⟩ | ⟨x, rfl, rfl, h1, h2, h3⟩
    · rw [he] at ho; cases ho
    · rw [h3] at ho
      simp only [Prod.mk.injEq] at ho
      obtain ⟨-, rfl, rfl⟩ := ho
      have hd := Prim.data_add (r := r) h2
      have hg : Dict.get? (p.add r x).data r = some (p.stored x) := by
        rw [hd, Dict.get?_set, if_pos rfl]
      rw [primI_unobserve, Prim.unobserve_held (Prim.inv_add h.1.1 h1 h2)
        ((Prim.outputs_add ..).trans hv) hg, Prim.remove_add h.1.1 h1 h2]
      exact primLaws.refl p h.1
  chain p r o i g p' g' x y h hr hw _ hc ho hy hx := by
    obtain ⟨v, hv⟩ := Prim.Inv.out h.1.1
    rw [primI_observe] at ho
    rcases Prim.observe_cases hv r o i with ⟨e, he⟩ | ⟨w, rfl, rfl, h1, h2, h3⟩
    · rw [he] at ho; cases ho
    · rw [h3] at ho
      simp only [Prod.mk.injEq] at ho
      obtain ⟨-, rfl, rfl⟩ := ho
      rw [if_neg (by simp), primI_logpdf] at hx
      have := Prim.chain h.1 hv h1 h2 hx
      change p.logpdfScore = _ at hy
      change (p.add r w).logpdfScore = _
      rw [Prim.logpdfScore_eq h.1.1 h.1.2] at hy
      cases hy
      rw [Prim.logpdfScore_eq (Prim.inv_add h.1.1 h1 h2) ((Prim.legalHypers_add ..).2 h.1.2), this]

end Cgpm2
