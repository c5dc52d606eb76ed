import Verif.Lemmas.BuiltLaws
import Verif.Spec.Ordered

/-!
# Answers do not depend on the order of dictionary entries (helpers)
-/

namespace Cgpm2
open Spec

namespace Dict
variable {K V : Type} [DecidableEq K]

theorem get?_perm {d d' : Dict K V} (nd : (keys d).Nodup) (h : d.Perm d') (k : K) :
    get? d k = get? d' k := by
  have nd' : (keys d').Nodup := (h.map Prod.fst).nodup_iff.1 nd
  rcases hd : get? d k with _ | v
  · symm
    rw [get?_eq_none_iff] at hd ⊢
    exact fun hk => hd ((h.map Prod.fst).mem_iff.2 hk)
  · exact (get?_of_mem nd' (h.mem_iff.1 (mem_of_get? hd))).symm

theorem perm_of_get? {d d' : Dict K V} (nd : (keys d).Nodup) (nd' : (keys d').Nodup)
    (h : ∀ k, get? d k = get? d' k) : d.Perm d' := by
  apply (List.perm_ext_iff_of_nodup (List.Nodup.of_map _ nd) (List.Nodup.of_map _ nd')).2
  rintro ⟨k, v⟩
  rw [mem_iff_get? nd, mem_iff_get? nd', h]

theorem nodup_keys_update (d e : Dict K V) (nd : (keys d).Nodup) : (keys (update d e)).Nodup := by
  induction e generalizing d with
  | nil => exact nd
  | cons kv e ih => exact ih _ (nodup_keys_set _ _ _ nd)

end Dict

namespace Spec.SameDict
variable {K V : Type} {d d' e e' : Dict K V}

theorem nodup' (h : SameDict d d') : (Dict.keys d').Nodup := (h.2.map Prod.fst).nodup_iff.1 h.1
theorem rfl' (h : (Dict.keys d).Nodup) : SameDict d d := ⟨h, .refl _⟩
theorem symm (h : SameDict d d') : SameDict d' d := ⟨h.nodup', h.2.symm⟩
theorem nil_iff (h : SameDict d d') : d = [] ↔ d' = [] := by
  constructor
  · rintro rfl; exact h.2.symm.eq_nil
  · rintro rfl; exact h.2.eq_nil
theorem filter (h : SameDict d d') (p : K × V → Bool) : SameDict (d.filter p) (d'.filter p) := by
  refine ⟨?_, h.2.filter p⟩
  exact List.Nodup.sublist (List.filter_sublist.map _) h.1
variable [DecidableEq K]
theorem get? (h : SameDict d d') (k : K) : Dict.get? d k = Dict.get? d' k :=
  Dict.get?_perm h.1 h.2 k
theorem of_get? (nd : (Dict.keys d).Nodup) (nd' : (Dict.keys d').Nodup)
    (h : ∀ k, Dict.get? d k = Dict.get? d' k) : SameDict d d' := ⟨nd, Dict.perm_of_get? nd nd' h⟩
theorem merged (h : SameDict d d') (he : SameDict e e') :
    SameDict (Cgpm2.merged d e) (Cgpm2.merged d' e') := by
  refine of_get? ?_ ?_ fun k => ?_
  · exact Dict.nodup_keys_update _ _ (Dict.nodup_keys_update _ _ (by simp))
  · exact Dict.nodup_keys_update _ _ (Dict.nodup_keys_update _ _ (by simp))
  · rw [Cgpm2.merged, Cgpm2.merged, Dict.get?_update _ _ he.1, Dict.get?_update _ _ he.nodup',
      Dict.update_nil_left _ h.1, Dict.update_nil_left _ h.nodup', h.get?, he.get?]
theorem del (h : SameDict d d') (k : K) : SameDict (Dict.del d k) (Dict.del d' k) := by
  refine of_get? (Dict.nodup_keys_del _ _ h.1) (Dict.nodup_keys_del _ _ h.nodup') fun k' => ?_
  rw [Dict.get?_del _ h.1, Dict.get?_del _ h.nodup', h.get?]
omit [DecidableEq K] in
theorem single (k : K) (v : V) : SameDict [(k, v)] [(k, v)] := rfl' (by simp)
omit [DecidableEq K] in
theorem empty : SameDict ([] : Dict K V) [] := rfl' (by simp)
omit [DecidableEq K] in
theorem eq_of_keys (h : SameDict d d') {k : K} (hk : Dict.keys d = [k]) : d' = d := by
  have : d.length = 1 := by simpa [Dict.keys] using congrArg List.length hk
  obtain ⟨x, rfl⟩ := List.length_eq_one_iff.1 this
  exact List.singleton_perm.1 h.2 ▸ rfl
omit [DecidableEq K] in
theorem keys_iff (h : SameDict d d') (k : K) : Dict.keys d = [k] ↔ Dict.keys d' = [k] :=
  ⟨fun hk => by rw [h.eq_of_keys hk]; exact hk, fun hk => by rw [h.symm.eq_of_keys hk]; exact hk⟩
end Spec.SameDict

theorem Spec.SameDict.only {d d' : Dict Var Val} (h : SameDict d d') (l : List Var) :
    SameDict (getIntersection l d) (getIntersection l d') := h.filter _

variable {S : Type}

/-- The order of dictionary entries does not matter. -/
structure Ordered (I : Iface S) (M : Sem S) : Prop where
  observe : ∀ r {o o' i i'}, SameDict o o' → SameDict i i' →
    Py.Rel M.E (I.observe r o i) (I.observe r o' i')
  logpdf : ∀ r {t t' c c' i i'}, SameDict t t' → SameDict c c' → SameDict i i' →
    Py.Rel M.E (I.logpdf r t c i) (I.logpdf r t' c' i')
  simulate : ∀ r t N {c c' i i'}, SameDict c c' → SameDict i i' →
    Py.Rel M.E (I.simulate r t c i N) (I.simulate r t c' i' N)

/-! ## Primitives -/

theorem observeGuard_same (r held x) {o o' i i' : Dict Var Val} (ho : SameDict o o')
    (hi : SameDict i i') : observeGuard r held [x] o i = observeGuard r held [x] o' i' := by
  unfold observeGuard
  simp only [ne_eq, hi.nil_iff, ho.keys_iff]

theorem logpdfGuard_same (held x) {t t' c c' i i' : Dict Var Val} (ht : SameDict t t')
    (hc : SameDict c c') (hi : SameDict i i') :
    logpdfGuard held [x] t c i = logpdfGuard held [x] t' c' i' := by
  unfold logpdfGuard
  simp only [ne_eq, hi.nil_iff, hc.nil_iff, ht.keys_iff]

theorem simulateGuard_same (outs t) {c c' i i' : Dict Var Val}
    (hc : SameDict c c') (hi : SameDict i i') :
    simulateGuard outs t c i = simulateGuard outs t c' i' := by
  unfold simulateGuard
  simp only [ne_eq, hi.nil_iff, hc.nil_iff]


theorem getItem_same (x : Var) {o o' : Dict Var Val} (ho : SameDict o o') :
    Dict.getItem o x = Dict.getItem o' x := by
  unfold Dict.getItem; rw [ho.get?]

theorem Prim.observe_same {p : Prim} {x : Var} (hx : p.outputs = [x]) (r) {o o' i i' : Dict Var Val}
    (ho : SameDict o o') (hi : SameDict i i') : p.observe r o i = p.observe r o' i' := by
  cases p with
  | crp c =>
    have hx' : c.outputs = [x] := hx
    simp only [Prim.observe, Py.wrap, Crp.observe, Py.bind_apply, Py.get_apply, Py.lift_apply, hx',
      observeGuard_same _ _ _ ho hi, firstOutput, getItem_same _ ho]
  | categorical c =>
    have hx' : c.outputs = [x] := hx
    simp only [Prim.observe, Py.wrap, Categorical.observe, Py.bind_apply, Py.get_apply, Py.lift_apply, hx',
      observeGuard_same _ _ _ ho hi, firstOutput, getItem_same _ ho]
  | bernoulli c =>
    have hx' : c.outputs = [x] := hx
    simp only [Prim.observe, Py.wrap, Bernoulli.observe, Py.bind_apply, Py.get_apply, Py.lift_apply, hx',
      observeGuard_same _ _ _ ho hi, firstOutput, getItem_same _ ho]
  | normal c =>
    have hx' : c.outputs = [x] := hx
    simp only [Prim.observe, Py.wrap, Normal.observe, Py.bind_apply, Py.get_apply, Py.lift_apply, hx',
      observeGuard_same _ _ _ ho hi, firstOutput, getItem_same _ ho]
  | normalUC c =>
    have hx' : c.outputs = [x] := hx
    simp only [Prim.observe, Py.wrap, NormalUC.observe, Py.bind_apply, Py.get_apply, Py.lift_apply, hx',
      observeGuard_same _ _ _ ho hi, firstOutput, getItem_same _ ho]
  | poisson c =>
    have hx' : c.outputs = [x] := hx
    simp only [Prim.observe, Py.wrap, Poisson.observe, Py.bind_apply, Py.get_apply, Py.lift_apply, hx',
      observeGuard_same _ _ _ ho hi, firstOutput, getItem_same _ ho]

theorem Prim.logpdf_same {p : Prim} {x : Var} (hx : p.outputs = [x]) (r)
    {t t' c c' i i' : Dict Var Val} (ht : SameDict t t') (hc : SameDict c c')
    (hi : SameDict i i') : p.logpdf r t c i = p.logpdf r t' c' i' := by
  cases p with
  | crp s =>
    have hx' : s.outputs = [x] := hx
    simp only [Prim.logpdf, Crp.logpdf, hx', hc.nil_iff, hi.nil_iff, ht.keys_iff, ne_eq, firstOutput,
      getItem_same _ ht]
  | categorical s =>
    have hx' : s.outputs = [x] := hx
    simp only [Prim.logpdf, Categorical.logpdf, hx', logpdfGuard_same _ _ ht hc hi, firstOutput,
      getItem_same _ ht]
  | bernoulli s =>
    have hx' : s.outputs = [x] := hx
    simp only [Prim.logpdf, Bernoulli.logpdf, hx', logpdfGuard_same _ _ ht hc hi, firstOutput,
      getItem_same _ ht]
  | normal s =>
    have hx' : s.outputs = [x] := hx
    simp only [Prim.logpdf, Normal.logpdf, hx', logpdfGuard_same _ _ ht hc hi, firstOutput,
      getItem_same _ ht]
  | normalUC s =>
    have hx' : s.outputs = [x] := hx
    simp only [Prim.logpdf, NormalUC.logpdf, hx', logpdfGuard_same _ _ ht hc hi, firstOutput,
      getItem_same _ ht]
  | poisson s =>
    have hx' : s.outputs = [x] := hx
    simp only [Prim.logpdf, Poisson.logpdf, hx', logpdfGuard_same _ _ ht hc hi, firstOutput,
      getItem_same _ ht]

theorem Prim.simulate_same (p : Prim) (r t N) {c c' i i' : Dict Var Val} (hc : SameDict c c')
    (hi : SameDict i i') : p.simulate r t c i N = p.simulate r t c' i' N := by
  cases p <;>
    simp only [Prim.simulate, Crp.simulate, Categorical.simulate, Bernoulli.simulate,
      Normal.simulate, NormalUC.simulate, Poisson.simulate, Crp.simulate1, Categorical.simulate1,
      Bernoulli.simulate1, Normal.simulate1, Poisson.simulate1, simulateGuard_same _ _ hc hi]

theorem Prim.observe_same_inputs (p : Prim) (r o) {i i' : Dict Var Val}
    (hi : SameDict i i') : p.observe r o i = p.observe r o i' := by
  have h : ∀ held outs, observeGuard r held outs o i = observeGuard r held outs o i' := by
    intro held outs; unfold observeGuard; simp only [ne_eq, hi.nil_iff]
  cases p <;> simp only [Prim.observe, Py.wrap, Crp.observe, Categorical.observe, Bernoulli.observe,
    Normal.observe, NormalUC.observe, Poisson.observe, h]

theorem primOrdered : Ordered primI primSem where
  observe r o o' i i' ho hi := by
    intro p q g h
    obtain ⟨x, hx⟩ := h.2.1.1.out
    have := primLaws.observe r o i p q g h
    have e : primI.observe r o' i' (q, g) = primI.observe r o i (q, g) := by
      change ((q.observe r o' i').1, ((q.observe r o' i').2, g)) = _
      rw [← Prim.observe_same hx r ho hi]; rfl
    rw [e]; exact this
  logpdf r t t' c c' i i' ht hc hi := by
    intro p q g h
    obtain ⟨x, hx⟩ := h.2.1.1.out
    have := primLaws.logpdf r t c i p q g h
    have e : primI.logpdf r t' c' i' (q, g) = primI.logpdf r t c i (q, g) := by
      change (q.logpdf r t' c' i', (q, g)) = _
      rw [← Prim.logpdf_same hx r ht hc hi]; rfl
    rw [e]; exact this
  simulate r t N c c' i i' hc hi := by
    intro p q g h
    have := primLaws.simulate r t c i N p q g h
    have e : primI.simulate r t c' i' N (q, g) = primI.simulate r t c i N (q, g) := by
      change ((q.simulate r t c' i' N g).1, (q, (q.simulate r t c' i' N g).2)) = _
      rw [← q.simulate_same r t N hc hi]; rfl
    rw [e]; exact this

/-! ## Products -/

section
variable {I : Iface S} {M : Sem S} (L : Laws I M) (O : Ordered I M)
include L O

theorem ordered_observeOne (r) {o o' i i' : Dict Var Val} (ho : SameDict o o')
    (hi : SameDict i i') : Py.Rel M.E (observeOne I r o i) (observeOne I r o' i') := by
  refine Py.Rel.get fun s s' g h => ?_
  simp only [L.outputs_E h, L.inputs_E h, ne_eq, (ho.only _).nil_iff]
  split
  · exact O.observe r (ho.only _) ((ho.only _).merged (hi.only _)) _ _ _ h
  · exact ⟨rfl, h, rfl⟩

theorem ordered_simulateOne (r t N) {c c' i i' : Dict Var Val} (hc : SameDict c c')
    (hi : SameDict i i') : Py.Rel M.E (simulateOne I r t c i N) (simulateOne I r t c' i' N) := by
  refine Py.Rel.get fun s s' g h => ?_
  simp only [L.outputs_E h, L.inputs_E h]
  split
  · exact ⟨rfl, h, rfl⟩
  · exact O.simulate r _ N (hc.only _) (hi.only _) _ _ _ h

theorem ordered_logpdfOne (r) {t t' c c' i i' : Dict Var Val} (ht : SameDict t t')
    (hc : SameDict c c') (hi : SameDict i i') :
    Py.Rel M.E (logpdfOne I r t c i) (logpdfOne I r t' c' i') := by
  refine Py.Rel.get fun s s' g h => ?_
  simp only [L.outputs_E h, L.inputs_E h, (ht.only _).nil_iff]
  split
  · exact ⟨rfl, h, rfl⟩
  · exact O.logpdf r (ht.only _) (hc.only _) (hi.only _) _ _ _ h

omit O in
theorem rel2_product {α : Type} {m m' : Py (S × Rng) α} (hm : Py.Rel M.E m m')
    (ha : ∀ s g, M.Inv s → attrs I M (m (s, g)).2.1 = attrs I M s) :
    Py.Rel (productSem I M).E (Product.each m) (Product.each m') := by
  rintro ⟨l⟩ ⟨l'⟩ g ⟨h, hv⟩
  obtain ⟨h1, h2, h3⟩ := hm.each _ _ g h
  refine ⟨h1, ⟨h2, ?_⟩, h3⟩
  rw [← hv]
  exact attrs_validate (Py.each_fixes ha l (forall_inv L h) g)

theorem productOrdered : Ordered (productI I) (productSem I M) where
  observe r _ _ _ _ ho hi := (rel2_product L (ordered_observeOne L O r ho hi) fun s g h =>
    observeOne_attrs L r _ _ s g h).bind fun _ => Py.Rel.pure _
  logpdf r _ _ _ _ _ _ ht hc hi := (rel2_product L (ordered_logpdfOne L O r ht hc hi)
    (attrs_of_keeps L (keeps_logpdfOne L r _ _ _))).bind fun _ => Py.Rel.pure _
  simulate r t N _ _ _ _ hc hi := (rel2_product L (ordered_simulateOne L O r t N hc hi)
    (attrs_of_keeps L (keeps_simulateOne L r t _ _ N))).bind fun _ => Py.Rel.lift _

end

/-! ## Arrays -/

/-- Reading attributes, then the same call with reordered dicts. -/
theorem Py.Rel.get3 {T α : Type} {E : S → S → Prop} {f f' : S × T → Py (S × T) α}
    (h1 : ∀ s s' g, E s s' → f (s, g) = f (s', g))
    (h2 : ∀ s g, E s s → Py.Rel E (f (s, g)) (f' (s, g)))
    (hr : ∀ s s', E s s' → E s' s') : Py.Rel E (Py.get >>= f) (Py.get >>= f') := by
  intro s s' g h
  rw [Py.get_bind, Py.get_bind, h1 s s' g h]
  exact h2 s' g (hr _ _ h) _ _ _ h

theorem Py.Rel.pureBind {T α β : Type} {E : S → S → Prop} {a : α} {f f' : α → Py (S × T) β}
    (h : Py.Rel E (f a) (f' a)) :
    Py.Rel E ((Pure.pure a : Py (S × T) α) >>= f) ((Pure.pure a : Py (S × T) α) >>= f') :=
  fun s s' g hE => h s s' g hE

theorem rel_popItem {T α : Type} {E : S → S → Prop} {i i' : Dict Var Val} (hi : SameDict i i')
    (x : Var) {f f' : Val × Dict Var Val → Py (S × T) α}
    (h : ∀ v j j', SameDict j j' → Py.Rel E (f (v, j)) (f' (v, j'))) :
    Py.Rel E (Py.lift (popItem i x) >>= f) (Py.lift (popItem i' x) >>= f') := by
  intro s s' g hE
  rw [Py.lift_bind, Py.lift_bind, popItem, popItem, hi.get?]
  rcases Dict.get? i' x with _ | v
  · exact ⟨rfl, hE, rfl⟩
  · exact h v _ _ (hi.del x) _ _ _ hE

namespace FinArray
variable {I : Iface S} {M : Sem S}

theorem rel2_onCgpm {α : Type} {m m' : Py (S × Rng) α} (hm : Py.Rel M.E m m') (i : Val) :
    Py.Rel (finArraySem M).E (onCgpm i m) (onCgpm i m') := by
  intro a b g h
  have hl := h.1.length_eq
  rcases hi : pyIndex b.cgpms.length i with e | j
  · rw [onCgpm_error (hl ▸ hi), onCgpm_error hi]
    exact ⟨rfl, h, rfl⟩
  · rcases forall_get h.1 j with ⟨h1, h2⟩ | ⟨c, c', h1, h2, hcc⟩
    · rw [onCgpm_none (hl ▸ hi) h1, onCgpm_none hi h2]
      exact ⟨rfl, h, rfl⟩
    · rw [onCgpm_some (hl ▸ hi) h1, onCgpm_some hi h2]
      obtain ⟨k1, k2, k3⟩ := hm _ _ g hcc
      refine ⟨k1, ⟨forall_set h.1 j k2, h.2.1, h.2.2.1, ?_, h.2.2.2.2⟩, k3⟩
      simpa using h.2.2.2.1

end FinArray

open FinArray in
theorem finArrayOrdered {I : Iface S} {M : Sem S} (L : Laws I M) (O : Ordered I M) :
    Ordered (finArrayI I) (finArraySem M) where
  observe r _ _ _ _ ho hi := Py.Rel.get3 (fun a b g h => by simp only [h.2.1])
    (fun _ _ _ => rel_popItem hi _ fun _ _ _ hj => (rel2_onCgpm (O.observe r ho hj) _).bind
      fun _ => rel_setRow _ _) fun _ _ h => E_refl_right L.refl_right h
  logpdf r _ _ _ _ _ _ ht hc hi := Py.Rel.get3 (fun a b g h => by simp only [h.2.1])
    (fun _ _ _ => rel_popItem hi _ fun _ _ _ hj => rel2_onCgpm (O.logpdf r ht hc hj) _)
    fun _ _ h => E_refl_right L.refl_right h
  simulate r t N _ _ _ _ hc hi := Py.Rel.get3 (fun a b g h => by simp only [h.2.1])
    (fun _ _ _ => rel_popItem hi _ fun _ _ _ hj => rel2_onCgpm (O.simulate r t N hc hj) _)
    fun _ _ h => E_refl_right L.refl_right h

namespace FlexArray
variable {I : Iface S} {M : Sem S} (L : Laws I M)

include L in
theorem rel2_onCgpm {α : Type} {m m' : Py (S × Rng) α} (hm : Py.Rel M.E m m')
    (hs : ∀ b s g, M.Inv s → Copy I M b s → Copy I M b (m (s, g)).2.1) (i : Val) :
    Py.Rel (flexArraySem I M).E (onCgpm I i m) (onCgpm I i m') := by
  intro a b g h
  obtain ⟨h1, h2, h3, h4, h5, h6, h7, h8, h9⟩ := h
  rw [onCgpm_eq L i m a g (L.inv _ _ h1), onCgpm_eq L i m' b g (L.inv' h1)]
  obtain ⟨k1, k2, k3⟩ := hm _ _ g (h4 i)
  refine ⟨k1, ⟨h1, h2, h3, fun k => ?_, h5, fun k => ?_, Dict.nodup_keys_set _ _ _ h7,
    Dict.nodup_keys_set _ _ _ h8, h9⟩, k3⟩
  · rw [comp_set, comp_set]
    split
    · exact k2
    · exact h4 k
  · rw [comp_set]
    split
    · exact hs _ _ _ (L.inv _ _ (h4 i)) (h6 i)
    · exact h6 k

end FlexArray

open FlexArray in
theorem flexArrayOrdered {I : Iface S} {M : Sem S} (L : Laws I M) (O : Ordered I M) :
    Ordered (flexArrayI I) (flexArraySem I M) where
  observe r _ _ _ _ ho hi := Py.Rel.get3 (fun a b g h => by simp only [h.2.1])
    (fun _ _ _ => rel_popItem hi _ fun _ _ _ hj => (rel2_onCgpm L (O.observe r ho hj)
      (copy_observe L _ _ _) _).bind
      fun _ => rel_setRow _ _) fun _ _ h => E_refl L (inv_of_E L (E_symm L h))
  logpdf r _ _ _ _ _ _ ht hc hi := Py.Rel.get3 (fun a b g h => by simp only [h.2.1])
    (fun _ _ _ => rel_popItem hi _ fun _ _ _ hj => rel2_onCgpm L (O.logpdf r ht hc hj)
      (keeps_copy L (L.logpdf_keeps _ _ _ _)) _)
    fun _ _ h => E_refl L (inv_of_E L (E_symm L h))
  simulate r t N _ _ _ _ hc hi := Py.Rel.get3 (fun a b g h => by simp only [h.2.1])
    (fun _ _ _ => rel_popItem hi _ fun _ _ _ hj => rel2_onCgpm L (O.simulate r t N hc hj)
      (keeps_copy L (L.simulate_keeps _ _ _ _ _)) _)
    fun _ _ h => E_refl L (inv_of_E L (E_symm L h))

/-! ## Row mixtures -/

namespace RowMix
variable {A : Type} {AI : Iface A} {MA : Sem A}

theorem rel2_onArray {α : Type} {f f' : Py (A × Rng) α} (hf : Py.Rel MA.E f f') :
    Py.Rel (E0 MA) (onArray f) (onArray f') :=
  Py.Rel.onAttr (fun _ _ h => h.2.1) (fun _ _ _ _ h h' => ⟨h.1, h', h.2.2⟩) hf

theorem rel2_onDivide {α : Type} {f f' : Py Prim α}
    (hf : Py.Rel (T := Rng) primSem.E (Py.onFst f) (Py.onFst f')) :
    Py.Rel (E0 MA) (onDivide f) (onDivide f') :=
  Py.Rel.onAttr (fun _ _ h => h.1) (fun _ _ _ _ h h' => ⟨h', h.2⟩) hf

variable (LA : Laws AI MA) (OA : Ordered AI MA)
include LA OA

theorem ordered_logpdfOne (r z) {t t' c c' i i' : Dict Var Val} (ht : SameDict t t')
    (hc : SameDict c c') (hi : SameDict i i') :
    Py.Rel (E0 MA) (logpdfOne AI r t c i z) (logpdfOne AI r t' c' i' z) := by
  refine Py.Rel.get3 (fun m n g h => ?_) (fun m g h => ?_) fun _ _ h => h.right LA
  · simp only [h.outputsX LA, h.indexer]
  · simp only [(ht.only _).nil_iff]
    split
    · exact Py.Rel.pure _
    · exact rel2_onArray (OA.logpdf r (ht.only _) (hc.only _) ((hi.only _).merged (.single _ _)))

theorem ordered_logpdfMarginal (r) {t t' c c' i i' : Dict Var Val} (ht : SameDict t t')
    (hc : SameDict c c') (hi : SameDict i i') :
    Py.Rel (E0 MA) (logpdfMarginal AI r t c i) (logpdfMarginal AI r t' c' i') := by
  refine Py.Rel.get3 (fun m n g h => ?_) (fun m g h => ?_) fun _ _ h => h.right LA
  · simp only [h.support, h.indexer, h.inputsZ, h.logpdf]
  · obtain ⟨x, hx⟩ := h.1.1.1.out
    simp only [Prim.logpdf_same hx r (.single _ _) .empty (hi.only m.inputsZ)]
    exact (Py.Rel.lift _).bind fun _ => (Py.Rel.lift _).bind fun _ =>
      (Py.Rel.mapL (fun _ => ordered_logpdfOne LA OA _ _ hc .empty hi) _).bind fun _ =>
      (Py.Rel.mapL (fun _ => ordered_logpdfOne LA OA _ _ ht hc hi) _).bind fun _ => Py.Rel.pure _

theorem ordered_logpdfWith {recur recur' : Dict Var Val → Py (RowMix A × Rng) Fl}
    (hr : ∀ c c', SameDict c c' → Py.Rel (E0 MA) (recur c) (recur' c')) (r)
    {t t' c c' i i' : Dict Var Val} (ht : SameDict t t')
    (hc : SameDict c c') (hi : SameDict i i') :
    Py.Rel (E0 MA) (logpdfWith AI recur r t c i) (logpdfWith AI recur' r t' c' i') := by
  refine Py.Rel.get3 (fun m n g h => ?_) (fun m g h => ?_) fun _ _ h => h.right LA
  · simp only [h.support, h.indexer, h.inputsZ, h.logpdf, h.2.2]
  · obtain ⟨x, hx⟩ := h.1.1.1.out
    simp only [ht.get?, hc.get?, hc.nil_iff, ne_eq,
      fun z => Prim.logpdf_same hx r (.single m.indexer z) .empty (hi.only m.inputsZ)]
    split
    · exact (Py.Rel.assert _).bind fun _ => ordered_logpdfOne LA OA _ _ ht hc hi
    · split
      · refine (Py.Rel.lift _).bind fun _ =>
          (ordered_logpdfOne LA OA _ _ (ht.merged hc) .empty hi).bind fun _ => ?_
        split
        · exact (hr _ _ hc).bind fun _ => Py.Rel.pure _
        · exact Py.Rel.bind (Py.Rel.pure _) fun _ => Py.Rel.pure _
      · split
        · refine (Py.Rel.lift _).bind fun _ => ?_
          split
          · exact Py.Rel.throw _
          · exact (ordered_logpdfOne LA OA _ _ (ht.merged hc) .empty hi).bind fun _ =>
              (ordered_logpdfOne LA OA _ _ hc .empty hi).bind fun _ => Py.Rel.pure _
        · exact ordered_logpdfMarginal LA OA _ ht hc hi

theorem ordered_logpdf (r) {t t' c c' i i' : Dict Var Val} (ht : SameDict t t')
    (hc : SameDict c c') (hi : SameDict i i') :
    Py.Rel (E0 MA) (logpdf AI r t c i) (logpdf AI r t' c' i') :=
  ordered_logpdfWith LA OA (fun _ _ h => ordered_logpdfWith LA OA (fun _ _ _ => Py.Rel.throw _)
    _ h .empty hi) _ ht hc hi

theorem ordered_simulateOne (r t N z) {c c' i i' : Dict Var Val}
    (hc : SameDict c c') (hi : SameDict i i') :
    Py.Rel (E0 MA) (simulateOne AI r t c i N z) (simulateOne AI r t c' i' N z) := by
  refine Py.Rel.get3 (fun m n g h => ?_) (fun m g h => ?_) fun _ _ h => h.right LA
  · simp only [h.outputsX LA, h.indexer]
  · dsimp only
    split
    · refine (rel2_onArray (OA.simulate r _ N (hc.only _)
        ((hi.only _).merged (.single _ _)))).bind fun s => ?_
      split
      · split
        · exact Py.Rel.pure _
        · exact Py.Rel.pure _
        · exact Py.Rel.throw _
        · exact Py.Rel.throw _
      · exact Py.Rel.pure _
    · refine Py.Rel.bind (Py.Rel.pure _) fun s => ?_
      split
      · split
        · exact Py.Rel.pure _
        · exact Py.Rel.pure _
        · exact Py.Rel.throw _
        · exact Py.Rel.throw _
      · exact Py.Rel.pure _

theorem ordered_simulateFresh (r t N) {c c' i i' : Dict Var Val}
    (hc : SameDict c c') (hi : SameDict i i') :
    Py.Rel (E0 MA) (simulateFresh AI r t c i N) (simulateFresh AI r t c' i' N) := by
  refine Py.Rel.get3 (fun m n g h => ?_) (fun m g h => ?_) fun _ _ h => h.right LA
  · simp only [h.support, h.indexer]
  · refine (Py.Rel.lift _).bind fun _ =>
      (Py.Rel.mapL (fun _ => ordered_logpdf LA OA _ (.single _ _) hc hi) _).bind
      fun _ => (Py.Rel.onSnd _).bind fun _ => (Py.Rel.lift _).bind fun _ =>
      (Py.Rel.mapL (fun _ => ordered_simulateOne LA OA _ _ _ _ hc hi) _).bind fun _ =>
      (Py.Rel.lift _).bind fun _ => ?_
    split
    · split
      · exact Py.Rel.throw _
      · exact Py.Rel.pure _
    · exact Py.Rel.pure _

theorem ordered_simulate (r t N) {c c' i i' : Dict Var Val}
    (hc : SameDict c c') (hi : SameDict i i') :
    Py.Rel (E0 MA) (simulate AI r t c i N) (simulate AI r t c' i' N) := by
  refine Py.Rel.get3 (fun m n g h => ?_) (fun m g h => ?_) fun _ _ h => h.right LA
  · simp only [h.support, h.indexer, h.2.2]
  · simp only [hc.get?, hc.nil_iff]
    split
    · exact (Py.Rel.assert _).bind fun _ => ordered_simulateOne LA OA _ _ _ _ hc hi
    · split
      · refine (Py.Rel.lift _).bind fun _ => ?_
        split
        · exact Py.Rel.throw _
        · exact ordered_simulateOne LA OA _ _ _ _ hc hi
      · exact ordered_simulateFresh LA OA _ _ _ hc hi

theorem ordered_observe (r) {o o' i i' : Dict Var Val} (ho : SameDict o o') (hi : SameDict i i') :
    Py.Rel (E0 MA) (observe AI r o i) (observe AI r o' i') := by
  refine Py.Rel.get3 (fun m n g h => ?_) (fun m g h => ?_) fun _ _ h => h.right LA
  · simp only [h.indexer, h.inputsZ, h.simulate, h.outputsX LA, h.inputsX LA, h.2.2]
  · simp only [ho.get?, m.rowDivide.simulate_same r [m.indexer] none (hi.only m.inputsZ) .empty]
    have hmod : ∀ z, Py.Rel (T := Rng) (E0 MA) (Py.modify fun st =>
        ({ st.1 with rowidToComponent := Dict.set st.1.rowidToComponent r z }, st.2))
        (Py.modify fun st =>
        ({ st.1 with rowidToComponent := Dict.set st.1.rowidToComponent r z }, st.2)) := by
      intro z
      refine Py.Rel.modify fun s s' g h => ⟨⟨h.1, h.2.1, ?_⟩, rfl⟩
      dsimp only
      rw [h.2.2]
    split
    · refine Py.Rel.pureBind ?_
      exact rel2_onArray (OA.observe r (ho.only _) ((hi.only _).merged (.single _ _)))
    · split
      · refine Py.Rel.pureBind ?_
        refine (rel2_onDivide (primOrdered.observe r (.single _ _) (hi.only _))).bind fun _ => ?_
        refine (Py.Rel.lift _).bind fun _ => (hmod _).bind fun _ => Py.Rel.pureBind ?_
        exact rel2_onArray (OA.observe r (ho.only _) ((hi.only _).merged (.single _ _)))
      · refine Py.Rel.bind (Py.Rel.onSnd _) fun out => (Py.Rel.lift _).bind fun comp => ?_
        by_cases nd : (Dict.keys comp).Nodup
        · refine (rel2_onDivide (primOrdered.observe r (.rfl' nd) (hi.only _))).bind fun _ => ?_
          refine (Py.Rel.lift _).bind fun _ => (hmod _).bind fun _ => Py.Rel.pureBind ?_
          exact rel2_onArray (OA.observe r (ho.only _) ((hi.only _).merged (.rfl' nd)))
        · intro s s' g hE
          have he : ∀ (s : RowMix A), s.rowDivide.Good → ∀ i, ∃ e,
              (onDivide (Prim.observe r comp i) (s, g)) = (.error e, (s, g)) := by
            intro s hs i
            obtain ⟨x, hx⟩ := hs.1.out
            rcases Prim.observe_cases hx r comp i with ⟨e, he⟩ | ⟨v, rfl, _⟩
            · refine ⟨e, ?_⟩
              simp only [onDivide, Py.onAttr, Py.onFst, he]
            · exact absurd (by simp) nd
          obtain ⟨e, h1⟩ := he s hE.1.1 (getIntersection m.inputsZ i)
          obtain ⟨e', h2⟩ := he s' hE.1.2.1 (getIntersection m.inputsZ i')
          rw [Py.bind_apply, Py.bind_apply, h1, h2]
          obtain ⟨x, hx⟩ := hE.1.1.1.out
          obtain ⟨h3, -, -⟩ := rel_onDivide (primLaws.observe r comp (getIntersection m.inputsZ i))
            s s' g hE
          have h4 : s'.rowDivide.observe r comp (getIntersection m.inputsZ i) =
              s'.rowDivide.observe r comp (getIntersection m.inputsZ i') :=
            Prim.observe_same_inputs _ _ _ (hi.only _)
          have h5 : onDivide (Prim.observe r comp (getIntersection m.inputsZ i)) (s', g) =
              onDivide (Prim.observe r comp (getIntersection m.inputsZ i')) (s', g) := by
            simp only [onDivide, Py.onAttr, Py.onFst, h4]
          change (onDivide (Prim.observe r comp (getIntersection m.inputsZ i)) (s, g)).1 =
            (onDivide (Prim.observe r comp (getIntersection m.inputsZ i)) (s', g)).1 at h3
          rw [h5, h1, h2] at h3
          exact ⟨by rw [Except.error.inj h3], hE, rfl⟩

omit OA in
theorem rel2_E {X α} {f f' : Py (RowMix A × Rng) α} (hf : Py.Rel (E0 MA) f f')
    (hp : ∀ m g, (rowMixSem MA X).Inv m → (rowMixSem MA X).Inv (f (m, g)).2.1) :
    Py.Rel (rowMixSem MA X).E f f' := by
  rintro m n g ⟨h, hi⟩
  obtain ⟨h1, h2, h3⟩ := hf m n g h
  have := hp m g ⟨h.1.1, LA.inv _ _ h.2.1, hi⟩
  exact ⟨h1, ⟨h2, this.2.2⟩, h3⟩

end RowMix

open RowMix in
theorem rowMixOrdered {A : Type} {AI : Iface A} {MA : Sem A} (LA : Laws AI MA)
    (OA : Ordered AI MA) {X : Prim → Nat → Prop} (hX : Stable X) (toM : RowMix A → Metadata)
    (fromM : Metadata → Except Err (RowMix A)) :
    Ordered (rowMixI AI toM fromM) (rowMixSem MA X) where
  observe r _ _ _ _ ho hi := rel2_E LA (ordered_observe LA OA r ho hi) fun m g h =>
    (pres_observe LA hX r _ _ m g ⟨h, ⟨rfl, rfl, rfl⟩, rfl, False.elim⟩).1
  logpdf r _ _ _ _ _ _ ht hc hi := rel2_E LA (ordered_logpdf LA OA r ht hc hi) fun m g h =>
    inv_of_E0 LA hX (keeps_logpdf LA r _ _ _ m g ⟨primLaws.refl _ h.1, LA.refl _ h.2.1, rfl⟩) h
  simulate r t N _ _ _ _ hc hi := rel2_E LA (ordered_simulate LA OA r t N hc hi) fun m g h =>
    inv_of_E0 LA hX (keeps_simulate LA r t _ _ N m g ⟨primLaws.refl _ h.1, LA.refl _ h.2.1, rfl⟩) h

theorem finMixOrdered {I : Iface S} {M : Sem S} (L : Laws I M) (O : Ordered I M) :
    Ordered (finMixI I) (finMixSem M) :=
  rowMixOrdered (finArrayLaws L) (finArrayOrdered L O) stable_finX _ _

theorem flexMixOrdered {I : Iface S} {M : Sem S} (L : Laws I M) (O : Ordered I M) :
    Ordered (flexMixI I) (flexMixSem I M) :=
  rowMixOrdered (flexArrayLaws L) (flexArrayOrdered L O) stable_true _ _

/-! ## Any depth -/

theorem nodeOrdered {I : Iface S} {M : Sem S} (L : Laws I M) (O : Ordered I M) :
    Ordered (nodeI I) (nodeSem I M) where
  observe r _ _ _ _ ho hi s s' g h := by
    cases s <;> cases s' <;> first | exact h.elim | skip
    · exact primOrdered.observe r ho hi _ _ g h
    · exact (productOrdered L O).observe r ho hi _ _ g h
    · exact (finArrayOrdered L O).observe r ho hi _ _ g h
    · exact (flexArrayOrdered L O).observe r ho hi _ _ g h
    · exact (finMixOrdered L O).observe r ho hi _ _ g h
    · exact (flexMixOrdered L O).observe r ho hi _ _ g h
  logpdf r _ _ _ _ _ _ ht hc hi s s' g h := by
    cases s <;> cases s' <;> first | exact h.elim | skip
    · exact primOrdered.logpdf r ht hc hi _ _ g h
    · exact (productOrdered L O).logpdf r ht hc hi _ _ g h
    · exact (finArrayOrdered L O).logpdf r ht hc hi _ _ g h
    · exact (flexArrayOrdered L O).logpdf r ht hc hi _ _ g h
    · exact (finMixOrdered L O).logpdf r ht hc hi _ _ g h
    · exact (flexMixOrdered L O).logpdf r ht hc hi _ _ g h
  simulate r t N _ _ _ _ hc hi s s' g h := by
    cases s <;> cases s' <;> first | exact h.elim | skip
    · exact primOrdered.simulate r t N hc hi _ _ g h
    · exact (productOrdered L O).simulate r t N hc hi _ _ g h
    · exact (finArrayOrdered L O).simulate r t N hc hi _ _ g h
    · exact (flexArrayOrdered L O).simulate r t N hc hi _ _ g h
    · exact (finMixOrdered L O).simulate r t N hc hi _ _ g h
    · exact (flexMixOrdered L O).simulate r t N hc hi _ _ g h

theorem cgpmOrdered : (n : Nat) → Ordered (cgpmI n) (cgpmSem n)
  | 0 => primOrdered
  | n + 1 => nodeOrdered (cgpmLaws n) (cgpmOrdered n)

theorem ask_same {I : Iface S} {M : Sem S} (L : Laws I M) (O : Ordered I M) {a b : Ask}
    (hab : SameAsk a b) : Py.Rel M.E (ask I a) (ask I b) := by
  intro s s' g h
  have aux : ∀ {α : Type} (f : α → Answer) (x y : Except Err α × (S × Rng)), Py.OutRel M.E x y →
      Py.OutRel M.E (x.1.map f, x.2) (y.1.map f, y.2) := by
    rintro α f x y ⟨h1, h2, h3⟩
    exact ⟨by simp only [h1], h2, h3⟩
  cases hab with
  | observe r ho hi => exact aux _ _ _ (O.observe r ho hi s s' g h)
  | logpdf r ht hc hi => exact aux _ _ _ (O.logpdf r ht hc hi s s' g h)
  | simulate r t N hc hi => exact aux _ _ _ (O.simulate r t N hc hi s s' g h)
  | same => exact ask_rel L a s s' g h

theorem answers_same {I : Iface S} {M : Sem S} (L : Laws I M) (O : Ordered I M)
    {as bs : List Ask} (hab : List.Forall₂ SameAsk as bs) {s s' : S} (h : M.E s s') (g : Rng) :
    answers I as (s, g) = answers I bs (s', g) := by
  induction hab generalizing s s' g with
  | nil => rfl
  | @cons a b as bs hab _ ih =>
    obtain ⟨h1, h2, h3⟩ := ask_same L O hab s s' g h
    simp only [answers, h1]
    congr 1
    have := ih h2 (ask I a (s, g)).2.2
    rw [show (ask I b (s', g)).2 = ((ask I b (s', g)).2.1, (ask I a (s, g)).2.2) by rw [h3]]
    exact this

end Cgpm2
