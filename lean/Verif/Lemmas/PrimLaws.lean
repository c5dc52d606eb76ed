import Verif.Lemmas.Laws
import Verif.Lemmas.PrimScore

/-!
# The primitives satisfy the laws (helpers)
-/

namespace Cgpm2
open Spec

namespace Py
variable {S α β : Type}

/-- The method commutes with `f`. -/
def Hom (f : S → S) (m : Py S α) : Prop := ∀ s, m (f s) = ((m s).1, f (m s).2)

theorem Hom.pure (f : S → S) (a : α) : Hom f (Pure.pure a : Py S α) := fun _ => rfl
theorem Hom.throw (f : S → S) (e : Err) : Hom (α := α) f (Py.throw e) := fun _ => rfl
theorem Hom.lift (f : S → S) (x : Except Err α) : Hom f (Py.lift x) := fun _ => rfl
theorem Hom.assert (f : S → S) (p : Prop) [Decidable p] : Hom f (Py.assert p) := by
  intro s; simp only [Py.assert]; split <;> rfl
theorem Hom.modify {f h : S → S} (hh : ∀ s, h (f s) = f (h s)) : Hom f (Py.modify h) := by
  intro s; simp [hh]
theorem Hom.bind {f : S → S} {m : Py S α} {k : α → Py S β} (hm : Hom f m) (hk : ∀ a, Hom f (k a)) :
    Hom f (m >>= k) := by
  intro s
  rw [bind_apply, bind_apply, hm s]
  rcases m s with ⟨_ | a, s'⟩
  · rfl
  · exact hk a s'
theorem Hom.get {f : S → S} {k : S → Py S β} (h1 : ∀ s, k (f s) = k s) (h2 : ∀ s, Hom f (k s)) :
    Hom f (Py.get >>= k) := by
  intro s
  change k (f s) (f s) = _
  rw [h1]
  exact h2 s s

end Py

/-- Prove that a method never looks at the attribute `f` clears. -/
macro "hom" : tactic => `(tactic| repeat' first
  | with_reducible exact Py.Hom.lift _ _
  | with_reducible exact Py.Hom.pure _ _
  | with_reducible exact Py.Hom.throw _ _
  | with_reducible exact Py.Hom.assert _ _
  | (with_reducible refine Py.Hom.modify ?_; intro s; first | rfl | (dsimp only; split <;> rfl))
  | (with_reducible refine Py.Hom.get ?_ ?_; (intro _; rfl); intro _)
  | (with_reducible refine Py.Hom.bind ?_ ?_; rotate_left; intro _; rotate_left)
  | split)

theorem Crp.hom_observe (r o i) :
    Py.Hom (fun c : Crp => { c with params := [] }) (Crp.observe r o i) := by
  unfold Crp.observe
  refine Py.Hom.get ?_ ?_
  · intro s
    refine bind_congr fun _ => bind_congr fun _ => bind_congr fun _ => bind_congr fun x => ?_
    have h : ∀ l l' : List Int, l = l' → (Py.assert (x ∈ l) : Py Crp Unit) = Py.assert (x ∈ l') := by
      rintro l _ rfl; rfl
    exact congrArg (· >>= _) (h _ _ rfl)
  · intro s; hom
theorem Crp.hom_unobserve (r) :
    Py.Hom (fun c : Crp => { c with params := [] }) (Crp.unobserve r) := by
  unfold Crp.unobserve; hom
theorem Categorical.hom_observe (r o i) :
    Py.Hom (fun c : Categorical => { c with params := [] }) (Categorical.observe r o i) := by
  unfold Categorical.observe; hom
theorem Categorical.hom_unobserve (r) :
    Py.Hom (fun c : Categorical => { c with params := [] }) (Categorical.unobserve r) := by
  unfold Categorical.unobserve; hom
theorem Bernoulli.hom_observe (r o i) :
    Py.Hom (fun c : Bernoulli => { c with params := [] }) (Bernoulli.observe r o i) := by
  unfold Bernoulli.observe; hom
theorem Bernoulli.hom_unobserve (r) :
    Py.Hom (fun c : Bernoulli => { c with params := [] }) (Bernoulli.unobserve r) := by
  unfold Bernoulli.unobserve; hom
theorem Normal.hom_observe (r o i) :
    Py.Hom (fun c : Normal => { c with params := [] }) (Normal.observe r o i) := by
  unfold Normal.observe; hom
theorem Normal.hom_unobserve (r) :
    Py.Hom (fun c : Normal => { c with params := [] }) (Normal.unobserve r) := by
  unfold Normal.unobserve; hom
theorem NormalUC.hom_observe (r o i) :
    Py.Hom (fun c : NormalUC => { c with params := [] }) (NormalUC.observe r o i) := by
  unfold NormalUC.observe; hom
theorem NormalUC.hom_unobserve (r) :
    Py.Hom (fun c : NormalUC => { c with params := [] }) (NormalUC.unobserve r) := by
  unfold NormalUC.unobserve; hom
theorem Poisson.hom_observe (r o i) :
    Py.Hom (fun c : Poisson => { c with params := [] }) (Poisson.observe r o i) := by
  unfold Poisson.observe; hom
theorem Poisson.hom_unobserve (r) :
    Py.Hom (fun c : Poisson => { c with params := [] }) (Poisson.unobserve r) := by
  unfold Poisson.unobserve; hom

namespace Prim

/-- The invariant used for primitives inside composites. -/
def Good (p : Prim) : Prop := p.Inv ∧ LegalHypers p

theorem clear_observe (p : Prim) (r o i) :
    p.clearParams.observe r o i = ((p.observe r o i).1, (p.observe r o i).2.clearParams) := by
  cases p with
  | crp c => simp only [clearParams, observe, Py.wrap, Crp.hom_observe r o i c]
  | categorical c => simp only [clearParams, observe, Py.wrap, Categorical.hom_observe r o i c]
  | bernoulli c => simp only [clearParams, observe, Py.wrap, Bernoulli.hom_observe r o i c]
  | normal c => simp only [clearParams, observe, Py.wrap, Normal.hom_observe r o i c]
  | normalUC c => simp only [clearParams, observe, Py.wrap, NormalUC.hom_observe r o i c]
  | poisson c => simp only [clearParams, observe, Py.wrap, Poisson.hom_observe r o i c]

theorem clear_unobserve (p : Prim) (r) :
    p.clearParams.unobserve r = ((p.unobserve r).1, (p.unobserve r).2.clearParams) := by
  cases p with
  | crp c => simp only [clearParams, unobserve, Py.wrap, Crp.hom_unobserve r c]
  | categorical c => simp only [clearParams, unobserve, Py.wrap, Categorical.hom_unobserve r c]
  | bernoulli c => simp only [clearParams, unobserve, Py.wrap, Bernoulli.hom_unobserve r c]
  | normal c => simp only [clearParams, unobserve, Py.wrap, Normal.hom_unobserve r c]
  | normalUC c => simp only [clearParams, unobserve, Py.wrap, NormalUC.hom_unobserve r c]
  | poisson c => simp only [clearParams, unobserve, Py.wrap, Poisson.hom_unobserve r c]

theorem clear_logpdf (p : Prim) (r t c i) : p.clearParams.logpdf r t c i = p.logpdf r t c i := by
  cases p <;> rfl

theorem clear_simulate (p : Prim) (r t c i N) :
    p.clearParams.simulate r t c i N = p.simulate r t c i N := by
  cases p <;> rfl

theorem clear_score (p : Prim) : p.clearParams.logpdfScore = p.logpdfScore := by
  cases p <;> rfl

theorem clear_outputs (p : Prim) : p.clearParams.outputs = p.outputs := by cases p <;> rfl
theorem clear_inputs (p : Prim) : p.clearParams.inputs = p.inputs := by cases p <;> rfl
theorem clear_support (p : Prim) : p.clearParams.support = p.support := by cases p <;> rfl
theorem clear_kind (p : Prim) : p.clearParams.kind = p.kind := by cases p <;> rfl
theorem clear_data (p : Prim) : p.clearParams.data = p.data := by cases p <;> rfl
theorem clear_clear (p : Prim) : p.clearParams.clearParams = p.clearParams := by cases p <;> rfl

theorem Good.clear {p : Prim} (h : p.Good) : p.clearParams.Good :=
  ⟨inv_clearParams h.1, (legalHypers_clearParams p).2 h.2⟩

theorem Good.observe {p : Prim} (h : p.Good) (r o i) : (p.observe r o i).2.Good :=
  ⟨inv_step h.1 (.observe r o i), legalHypers_step h.1 h.2 (.observe r o i)⟩

theorem Good.unobserve {p : Prim} (h : p.Good) (r) : (p.unobserve r).2.Good :=
  ⟨inv_step h.1 (.unobserve r), legalHypers_step h.1 h.2 (.unobserve r)⟩

theorem outputs_observe {p : Prim} (h : p.Good) (r o i) : (p.observe r o i).2.outputs = p.outputs ∧
    (p.observe r o i).2.inputs = p.inputs := by
  obtain ⟨x, hx⟩ := h.1.out
  rcases observe_cases hx r o i with ⟨e, he⟩ | ⟨v, _, _, _, _, he⟩ <;> rw [he]
  · exact ⟨rfl, rfl⟩
  · exact ⟨outputs_add .., inputs_add ..⟩

theorem outputs_unobserve {p : Prim} (h : p.Good) (r) : (p.unobserve r).2.outputs = p.outputs ∧
    (p.unobserve r).2.inputs = p.inputs := by
  obtain ⟨x, hx⟩ := h.1.out
  by_cases hr : r ∈ Dict.keys p.data
  · obtain ⟨v, hv⟩ := Dict.exists_get?_of_mem_keys hr
    rw [unobserve_held h.1 hx hv]; exact ⟨outputs_remove .., inputs_remove ..⟩
  · rw [unobserve_absent hr]; exact ⟨rfl, rfl⟩

theorem kind_observe {p : Prim} (h : p.Good) (r o i) : (p.observe r o i).2.kind = p.kind := by
  obtain ⟨x, hx⟩ := h.1.out
  rcases observe_cases hx r o i with ⟨e, he⟩ | ⟨v, _, _, _, _, he⟩ <;> rw [he]
  cases p <;> cases v <;> rfl

theorem kind_unobserve {p : Prim} (h : p.Good) (r) : (p.unobserve r).2.kind = p.kind := by
  obtain ⟨x, hx⟩ := h.1.out
  by_cases hr : r ∈ Dict.keys p.data
  · obtain ⟨v, hv⟩ := Dict.exists_get?_of_mem_keys hr
    rw [unobserve_held h.1 hx hv]; cases p <;> cases v <;> rfl
  · rw [unobserve_absent hr]

end Prim

/-- The number of categories; 0 for the other classes. -/
def Prim.card : Prim → Nat
  | .categorical c => c.k
  | _ => 0

/-- The structure of a primitive. -/
def Prim.shape (p : Prim) : Shape := .prim p.outputs p.kind p.card

theorem Prim.clear_card (p : Prim) : p.clearParams.card = p.card := by cases p <;> rfl

theorem Prim.card_observe {p : Prim} (h : p.Good) (r o i) : (p.observe r o i).2.card = p.card := by
  obtain ⟨x, hx⟩ := h.1.out
  rcases observe_cases hx r o i with ⟨e, he⟩ | ⟨v, _, _, _, _, he⟩ <;> rw [he]
  cases p <;> cases v <;> rfl

theorem Prim.card_unobserve {p : Prim} (h : p.Good) (r) : (p.unobserve r).2.card = p.card := by
  obtain ⟨x, hx⟩ := h.1.out
  by_cases hr : r ∈ Dict.keys p.data
  · obtain ⟨v, hv⟩ := Dict.exists_get?_of_mem_keys hr
    rw [unobserve_held h.1 hx hv]; cases p <;> cases v <;> rfl
  · rw [unobserve_absent hr]

theorem Prim.shape_observe {p : Prim} (h : p.Good) (r o i) : (p.observe r o i).2.shape = p.shape := by
  simp only [Prim.shape, (Prim.outputs_observe h r o i).1, Prim.kind_observe h, Prim.card_observe h]

theorem Prim.shape_unobserve {p : Prim} (h : p.Good) (r) : (p.unobserve r).2.shape = p.shape := by
  simp only [Prim.shape, (Prim.outputs_unobserve h r).1, Prim.kind_unobserve h, Prim.card_unobserve h]

theorem Prim.clear_shape (p : Prim) : p.clearParams.shape = p.shape := by
  simp only [Prim.shape, Prim.clear_outputs, Prim.clear_kind, Prim.clear_card]

/-- Semantics of the primitives. -/
def primSem : Sem Prim where
  Inv := Prim.Good
  strip := Prim.clearParams
  E p q := p.Good ∧ q.Good ∧ p.clearParams = q.clearParams
  shape := Prim.shape

theorem primLaws : Laws primI primSem where
  refl p h := ⟨h, h, rfl⟩
  symm p q h := ⟨h.2.1, h.1, h.2.2.symm⟩
  trans a b c h h' := ⟨h.1, h'.2.1, h.2.2.trans h'.2.2⟩
  inv p q h := h.1
  attrs_E p q h := by
    have h1 := congrArg Prim.outputs h.2.2
    have h2 := congrArg Prim.inputs h.2.2
    simp only [Prim.clear_outputs, Prim.clear_inputs] at h1 h2
    have h3 := congrArg Prim.shape h.2.2
    simp only [Prim.clear_shape] at h3
    simp [attrs, primI, primSem, h1, h2, h3]
  score_E p q h := by
    have h1 := congrArg Prim.logpdfScore h.2.2
    simp only [Prim.clear_score] at h1
    exact h1
  observe r o i := by
    intro p q g h
    have h1 := congrArg (fun x => x.observe r o i) h.2.2
    simp only [Prim.clear_observe] at h1
    exact ⟨(Prod.ext_iff.1 h1).1, ⟨h.1.observe r o i, h.2.1.observe r o i, (Prod.ext_iff.1 h1).2⟩, rfl⟩
  unobserve r := by
    intro p q g h
    have h1 := congrArg (fun x => x.unobserve r) h.2.2
    simp only [Prim.clear_unobserve] at h1
    exact ⟨(Prod.ext_iff.1 h1).1, ⟨h.1.unobserve r, h.2.1.unobserve r, (Prod.ext_iff.1 h1).2⟩, rfl⟩
  logpdf r t c i := by
    intro p q g h
    have h1 := congrArg (fun x => x.logpdf r t c i) h.2.2
    simp only [Prim.clear_logpdf] at h1
    exact ⟨h1, h, rfl⟩
  simulate r t c i N := by
    intro p q g h
    have h1 := congrArg (fun x => x.simulate r t c i N) h.2.2
    simp only [Prim.clear_simulate] at h1
    refine ⟨?_, h, ?_⟩
    · change (p.simulate r t c i N g).1 = (q.simulate r t c i N g).1; rw [h1]
    · change (p.simulate r t c i N g).2 = (q.simulate r t c i N g).2; rw [h1]
  observe_attrs r o i p g h := by
    have := Prim.outputs_observe h r o i
    change ((p.observe r o i).2.outputs, (p.observe r o i).2.inputs, (p.observe r o i).2.shape) = _
    rw [this.1, this.2, Prim.shape_observe h]; rfl
  unobserve_attrs r p g h := by
    have := Prim.outputs_unobserve h r
    change ((p.unobserve r).2.outputs, (p.unobserve r).2.inputs, (p.unobserve r).2.shape) = _
    rw [this.1, this.2, Prim.shape_unobserve h]; rfl
  observe_scored r o i p g h _ :=
    ⟨_, Prim.logpdfScore_eq (h.observe r o i).1 (h.observe r o i).2⟩
  unobserve_scored r p g h _ := ⟨_, Prim.logpdfScore_eq (h.unobserve r).1 (h.unobserve r).2⟩
  unobserve_noDraw _ := fun _ _ _ => ⟨rfl, rfl, rfl⟩
  logpdf_noDraw _ _ _ _ := fun _ _ _ => ⟨rfl, rfl, rfl⟩
  logpdf_keeps _ _ _ _ := fun _ _ h => h
  simulate_keeps _ _ _ _ _ := fun _ _ h => h
  clone p h := Prim.clone_eq h.1
  strip p h := ⟨h, h.clear, (Prim.clear_clear p).symm⟩

end Cgpm2
