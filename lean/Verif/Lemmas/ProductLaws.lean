import Verif.Lemmas.Laws
import Verif.Lemmas.FlSum

/-!
# Products satisfy the laws (helpers)
-/

namespace Cgpm2
namespace Py
variable {S T Q α : Type}

theorem each_fixes {Inv : S → Prop} {q : S → Q} {m : Py (S × T) α}
    (h : ∀ s g, Inv s → q (m (s, g)).2.1 = q s) (l : List S) (hl : ∀ s ∈ l, Inv s) (g : T) :
    (Py.each m (l, g)).2.1.map q = l.map q := by
  induction l generalizing g with
  | nil => rfl
  | cons s l ih =>
    have hs := h s g (hl s (by simp))
    rw [each_cons]
    rcases hx : m (s, g) with ⟨_ | a, s1, g1⟩ <;> rw [hx] at hs
    · simpa using hs
    · have k := ih (fun s hs => hl s (by simp [hs])) g1
      dsimp only
      rcases hy : Py.each m (l, g1) with ⟨_ | as, l1, g1'⟩ <;> rw [hy] at k <;>
        simpa using ⟨hs, k⟩

theorem each_all {Inv : S → Prop} {P : S → Prop} {m : Py (S × T) α}
    (h : ∀ s g, Inv s → P s → P (m (s, g)).2.1) (l : List S) (hl : ∀ s ∈ l, Inv s)
    (hp : ∀ s ∈ l, P s) (g : T) : ∀ s ∈ (Py.each m (l, g)).2.1, P s := by
  induction l generalizing g with
  | nil => simp [each_nil]
  | cons s l ih =>
    have hs := h s g (hl s (by simp)) (hp s (by simp))
    rw [each_cons]
    rcases hx : m (s, g) with ⟨_ | a, s1, g1⟩ <;> rw [hx] at hs
    · rintro t ht
      rcases List.mem_cons.1 ht with rfl | ht
      · exact hs
      · exact hp t (by simp [ht])
    · have k := ih (fun s hs => hl s (by simp [hs])) (fun s hs => hp s (by simp [hs])) g1
      dsimp only
      rcases hy : Py.each m (l, g1) with ⟨_ | as, l1, g1'⟩ <;> rw [hy] at k <;>
        (rintro t ht
         rcases List.mem_cons.1 ht with rfl | ht
         · exact hs
         · exact k t ht)

end Py

section
variable {S : Type} {I : Iface S} {M : Sem S} (L : Laws I M)
include L

theorem rel_observeOne (r o i) : Py.Rel M.E (observeOne I r o i) (observeOne I r o i) := by
  refine Py.Rel.get fun s s' g h => ?_
  simp only [L.outputs_E h, L.inputs_E h]
  split
  · exact L.observe _ _ _ _ _ _ h
  · exact ⟨rfl, h, rfl⟩

theorem rel_unobserveOne (r) : Py.Rel M.E (unobserveOne I r) (unobserveOne I r) :=
  (L.unobserve r).catchAll _

theorem rel_simulateOne (r t c i N) :
    Py.Rel M.E (simulateOne I r t c i N) (simulateOne I r t c i N) := by
  refine Py.Rel.get fun s s' g h => ?_
  simp only [L.outputs_E h, L.inputs_E h]
  split
  · exact ⟨rfl, h, rfl⟩
  · exact L.simulate _ _ _ _ _ _ _ _ h

theorem rel_logpdfOne (r t c i) : Py.Rel M.E (logpdfOne I r t c i) (logpdfOne I r t c i) := by
  refine Py.Rel.get fun s s' g h => ?_
  simp only [L.outputs_E h, L.inputs_E h]
  split
  · exact ⟨rfl, h, rfl⟩
  · exact L.logpdf _ _ _ _ _ _ _ h

theorem keeps_simulateOne (r t c i N) : Py.Keeps M.E (simulateOne I r t c i N) := by
  refine Py.Keeps.get fun s g h => ?_
  dsimp only
  split
  · exact h
  · exact L.simulate_keeps _ _ _ _ _ _ _ h

theorem keeps_logpdfOne (r t c i) : Py.Keeps M.E (logpdfOne I r t c i) := by
  refine Py.Keeps.get fun s g h => ?_
  dsimp only
  split
  · exact h
  · exact L.logpdf_keeps _ _ _ _ _ _ h

theorem noDraw_logpdfOne (r t c i) : Py.NoDraw (logpdfOne I r t c i) := by
  refine Py.NoDraw.get fun s g g' => ?_
  dsimp only
  split
  · exact ⟨rfl, rfl, rfl⟩
  · exact L.logpdf_noDraw _ _ _ _ _ _ _

theorem noDraw_unobserveOne (r) : Py.NoDraw (unobserveOne I r) := by
  intro s g g'
  obtain ⟨h1, h2, h3⟩ := L.unobserve_noDraw r s g g'
  unfold unobserveOne Py.catchAll
  rcases hx : I.unobserve r (s, g) with ⟨_ | a, s1, g1⟩ <;>
    rcases hy : I.unobserve r (s, g') with ⟨_ | b, s2, g2⟩ <;>
    rw [hx, hy] at h1 h2 <;> rw [hx] at h3 <;> simp_all

theorem observeOne_attrs (r o i s g) (h : M.Inv s) :
    attrs I M (observeOne I r o i (s, g)).2.1 = attrs I M s := by
  rw [observeOne, Py.get_bind]
  dsimp only
  split
  · exact L.observe_attrs _ _ _ _ _ h
  · rfl

omit L in
theorem unobserveOne_snd (r s g) :
    (unobserveOne I r (s, g)).2 = (I.unobserve r (s, g)).2 := by
  unfold unobserveOne Py.catchAll
  rcases I.unobserve r (s, g) with ⟨_ | a, s1, g1⟩ <;> rfl

theorem observeOne_scored (r o i s g) (h : M.Inv s) (hs : Scored I s) :
    Scored I (observeOne I r o i (s, g)).2.1 := by
  rw [observeOne, Py.get_bind]
  dsimp only
  split
  · exact L.observe_scored _ _ _ _ _ h hs
  · exact hs

end

variable {S : Type} (I : Iface S) (M : Sem S)

/-- Semantics of products. -/
def productSem : Sem (Product S) where
  Inv p := (∀ c ∈ p.cgpms, M.Inv c) ∧ Product.validate I p.cgpms = .ok ()
  strip p := ⟨p.cgpms.map M.strip⟩
  E p q := List.Forall₂ M.E p.cgpms q.cgpms ∧ Product.validate I p.cgpms = .ok ()
  shape p := .product (p.cgpms.map M.shape)

variable {I M} (L : Laws I M)

theorem attrs_flatMap {l l' : List S} (h : l.map (attrs I M) = l'.map (attrs I M)) :
    l.flatMap I.outputs = l'.flatMap I.outputs ∧ l.flatMap I.inputs = l'.flatMap I.inputs := by
  have e1 : ∀ l : List S, l.flatMap I.outputs = (l.map (attrs I M)).flatMap Prod.fst := by
    intro l; simp [List.flatMap_map, attrs]
  have e2 : ∀ l : List S, l.flatMap I.inputs = (l.map (attrs I M)).flatMap fun x => x.2.1 := by
    intro l; simp [List.flatMap_map, attrs]
  rw [e1, e1 l', e2, e2 l', h]; exact ⟨rfl, rfl⟩

theorem attrs_shape {l l' : List S} (h : l.map (attrs I M) = l'.map (attrs I M)) :
    l.map M.shape = l'.map M.shape := by
  have := congrArg (List.map fun x => x.2.2) h
  simpa [attrs, Function.comp_def] using this

theorem attrs_validate {l l' : List S} (h : l.map (attrs I M) = l'.map (attrs I M)) :
    Product.validate I l = Product.validate I l' := by
  obtain ⟨h1, h2⟩ := attrs_flatMap h
  simp only [Product.validate, h1, h2]

include L in
theorem attrs_forall {l l' : List S} (h : List.Forall₂ M.E l l') :
    l.map (attrs I M) = l'.map (attrs I M) := by
  induction h with
  | nil => rfl
  | cons h _ ih => simp [L.attrs_E _ _ h, ih]

include L in
theorem forall_refl {l : List S} (h : ∀ s ∈ l, M.Inv s) : List.Forall₂ M.E l l := by
  induction l with
  | nil => exact .nil
  | cons a l ih => exact .cons (L.refl a (h a (by simp))) (ih fun s hs => h s (by simp [hs]))

include L in
theorem forall_inv {l l' : List S} (h : List.Forall₂ M.E l l') : ∀ s ∈ l, M.Inv s := by
  induction h with
  | nil => simp
  | cons h _ ih =>
    intro s hs
    rcases List.mem_cons.1 hs with rfl | hs
    · exact L.inv _ _ h
    · exact ih s hs

include L in
theorem forall_symm {l l' : List S} (h : List.Forall₂ M.E l l') : List.Forall₂ M.E l' l :=
  (h.imp fun _ _ h => L.symm _ _ h).flip

include L in
theorem forall_trans {a b c : List S} (h : List.Forall₂ M.E a b) (h' : List.Forall₂ M.E b c) :
    List.Forall₂ M.E a c := by
  induction h generalizing c with
  | nil => exact h'
  | cons h _ ih => cases h' with
    | cons h2 h3 => exact .cons (L.trans _ _ _ h h2) (ih h3)

include L in
theorem forall_strip {l : List S} (h : ∀ s ∈ l, M.Inv s) : List.Forall₂ M.E l (l.map M.strip) := by
  induction l with
  | nil => exact .nil
  | cons a l ih => exact .cons (L.strip a (h a (by simp))) (ih fun s hs => h s (by simp [hs]))

include L in
theorem rel_product {α : Type} {m : Py (S × Rng) α} (hm : Py.Rel M.E m m)
    (ha : ∀ s g, M.Inv s → attrs I M (m (s, g)).2.1 = attrs I M s) :
    Py.Rel (productSem I M).E (Product.each m) (Product.each m) := by
  rintro ⟨l⟩ ⟨l'⟩ g ⟨h, hv⟩
  obtain ⟨h1, h2, h3⟩ := hm.each _ _ g h
  refine ⟨h1, ⟨h2, ?_⟩, h3⟩
  rw [← hv]
  exact attrs_validate (Py.each_fixes ha l (forall_inv L h) g)

theorem keeps_product {α : Type} {m : Py (S × Rng) α} (hm : Py.Keeps M.E m) :
    Py.Keeps (productSem I M).E (Product.each m) := by
  rintro ⟨l⟩ g ⟨h, hv⟩
  exact ⟨hm.each _ g h, hv⟩

theorem noDraw_product {α : Type} {m : Py (S × Rng) α} (hm : Py.NoDraw m) :
    Py.NoDraw (Product.each m) := hm.each.onAttr

theorem scored_product (p : Product S) :
    Scored (productI I) p ↔ ∀ c ∈ p.cgpms, Scored I c :=
  sumScore_fin_iff I.logpdfScore p.cgpms

include L in
theorem attrs_of_keeps {α : Type} {m : Py (S × Rng) α} (hm : Py.Keeps M.E m) (s g)
    (h : M.Inv s) : attrs I M (m (s, g)).2.1 = attrs I M s :=
  (L.attrs_E _ _ (hm s g (L.refl s h))).symm

theorem attrs_product {p q : Product S} (h : p.cgpms.map (attrs I M) = q.cgpms.map (attrs I M)) :
    attrs (productI I) (productSem I M) p = attrs (productI I) (productSem I M) q := by
  obtain ⟨h1, h2⟩ := attrs_flatMap h
  simp only [attrs, productI, Product.outputs, Product.inputs, h1, h2, productSem, attrs_shape h]

theorem bind_snd_of_keep {S α β : Type} (m : Py S α) (k : α → Py S β)
    (hk : ∀ a s, (k a s).2 = s) (s : S) : ((m >>= k) s).2 = (m s).2 := by
  rw [Py.bind_apply]
  rcases m s with ⟨_ | a, s'⟩
  · rfl
  · exact hk a s'

theorem Product.observe_snd (r o i) (st) :
    (Product.observe I r o i st).2 = (Product.each (observeOne I r o i) st).2 :=
  bind_snd_of_keep _ _ (fun _ _ => rfl) _

theorem Product.unobserve_snd (r) (st) :
    (Product.unobserve I r st).2 = (Product.each (unobserveOne I r) st).2 :=
  bind_snd_of_keep _ _ (fun l _ => by by_cases h : l = [] <;> simp [h]) _

include L in
theorem productLaws : Laws (productI I) (productSem I M) where
  refl p h := ⟨forall_refl L h.1, h.2⟩
  symm p q h := ⟨forall_symm L h.1, by rw [← attrs_validate (attrs_forall L h.1), h.2]⟩
  trans a b c h h' := ⟨forall_trans L h.1 h'.1, h.2⟩
  inv p q h := ⟨forall_inv L h.1, h.2⟩
  attrs_E p q h := attrs_product (attrs_forall L h.1)
  score_E p q h := by
    have : p.cgpms.mapM I.logpdfScore = q.cgpms.mapM I.logpdfScore :=
      mapM_congr' _ _ (h.1.imp fun _ _ h => L.score_E _ _ h)
    simp only [productI, Product.logpdfScore, this]
  observe r o i := (rel_product L (rel_observeOne L r o i) fun s g h =>
    observeOne_attrs L r o i s g h).bind fun _ => Py.Rel.pure _
  unobserve r := (rel_product L (rel_unobserveOne L r) fun s g h => by
    rw [unobserveOne_snd]; exact L.unobserve_attrs r s g h).bind fun _ => by
      split
      · exact Py.Rel.throw _
      · exact Py.Rel.pure _
  logpdf r t c i := (rel_product L (rel_logpdfOne L r t c i)
    (attrs_of_keeps L (keeps_logpdfOne L r t c i))).bind fun _ => Py.Rel.pure _
  simulate r t c i N := (rel_product L (rel_simulateOne L r t c i N)
    (attrs_of_keeps L (keeps_simulateOne L r t c i N))).bind fun _ => Py.Rel.lift _
  observe_attrs r o i p g h := by
    change attrs _ _ (Product.observe I r o i (p, g)).2.1 = _
    rw [Product.observe_snd]
    exact attrs_product (Py.each_fixes (fun s g h => observeOne_attrs L r o i s g h) p.cgpms h.1 g)
  unobserve_attrs r p g h := by
    change attrs _ _ (Product.unobserve I r (p, g)).2.1 = _
    rw [Product.unobserve_snd]
    exact attrs_product (Py.each_fixes (fun s g h => by
      rw [unobserveOne_snd]; exact L.unobserve_attrs r s g h) p.cgpms h.1 g)
  observe_scored r o i p g h hs := by
    change Scored _ (Product.observe I r o i (p, g)).2.1
    rw [Product.observe_snd]
    rw [scored_product] at hs ⊢
    exact Py.each_all (fun s g h hs => observeOne_scored L r o i s g h hs) p.cgpms h.1 hs g
  unobserve_scored r p g h hs := by
    change Scored _ (Product.unobserve I r (p, g)).2.1
    rw [Product.unobserve_snd]
    rw [scored_product] at hs ⊢
    exact Py.each_all (fun s g h hs => by
      rw [unobserveOne_snd]; exact L.unobserve_scored r s g h hs) p.cgpms h.1 hs g
  unobserve_noDraw r := (noDraw_product (noDraw_unobserveOne L r)).bind fun _ => by
    split
    · exact Py.NoDraw.throw _
    · exact Py.NoDraw.pure _
  logpdf_noDraw r t c i := (noDraw_product (noDraw_logpdfOne L r t c i)).bind fun _ =>
    Py.NoDraw.pure _
  logpdf_keeps r t c i p g h := by
    change (productSem I M).E p (Product.logpdf I r t c i (p, g)).2.1
    rw [Product.logpdf, bind_snd_of_keep _ _ (fun _ _ => rfl)]
    exact keeps_product (keeps_logpdfOne L r t c i) p g h
  simulate_keeps r t c i N p g h := by
    change (productSem I M).E p (Product.simulate I r t c i N (p, g)).2.1
    rw [Product.simulate, bind_snd_of_keep _ _ (fun _ _ => rfl)]
    exact keeps_product (keeps_simulateOne L r t c i N) p g h
  clone p h := by
    change Product.fromMetadata I (.product (p.cgpms.map I.toMetadata)) = _
    have : (p.cgpms.map I.toMetadata).mapM I.fromMetadata = .ok (p.cgpms.map M.strip) := by
      rw [List.mapM_map]
      exact mapM_ok _ _ _ fun c hc => L.clone c (h.1 c hc)
    have hv : Product.validate I (p.cgpms.map M.strip) = .ok () := by
      rw [← h.2]
      exact attrs_validate (attrs_forall L (forall_symm L (forall_strip L h.1)))
    simp only [Product.fromMetadata, this, Product.init, bind, Except.bind, hv, pure, Except.pure]
    rfl
  strip p h := ⟨forall_strip L h.1, h.2⟩

end Cgpm2
