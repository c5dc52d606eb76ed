import Mathlib.Algebra.BigOperators.Group.Finset.Basic
import Mathlib.Data.List.Forall2
import Verif.Lemmas.ProductLaws
import Verif.Lemmas.Dict

/-!
# Arrays satisfy the laws (helpers)
-/

namespace Cgpm2
namespace Py
variable {S T α : Type}

/-- Both runs read the same attributes. -/
theorem Rel.get2 {E : S → S → Prop} {f : S × T → Py (S × T) α}
    (h1 : ∀ s s' g, E s s' → f (s, g) = f (s', g)) (h2 : ∀ s g, E s s → Rel E (f (s, g)) (f (s, g)))
    (hr : ∀ s s', E s s' → E s' s') : Rel E (Py.get >>= f) (Py.get >>= f) := by
  intro s s' g h
  rw [get_bind, get_bind, h1 s s' g h]
  exact h2 s' g (hr _ _ h) _ _ _ h

/-- `m` preserves `P`. -/
def Pres (P : S → Prop) (m : Py (S × T) α) : Prop := ∀ s g, P s → P (m (s, g)).2.1

theorem Pres.pure (P : S → Prop) (a : α) : Pres (T := T) P (Pure.pure a : Py (S × T) α) :=
  fun _ _ h => h
theorem Pres.throw (P : S → Prop) (e : Err) : Pres (T := T) (α := α) P (Py.throw e) :=
  fun _ _ h => h
theorem Pres.lift (P : S → Prop) (x : Except Err α) : Pres (T := T) P (Py.lift x) :=
  fun _ _ h => h
theorem Pres.assert (P : S → Prop) (p : Prop) [Decidable p] : Pres (T := T) P (Py.assert p) := by
  intro s g h; simp only [assert_apply]; split <;> exact h
theorem Pres.onSnd (P : S → Prop) (m : Py T α) : Pres (T := T) P (Py.onSnd m) := fun _ _ h => h
theorem Pres.bind {β : Type} {P : S → Prop} {m : Py (S × T) α} {f : α → Py (S × T) β}
    (hm : Pres P m) (hf : ∀ a, Pres P (f a)) : Pres P (m >>= f) := by
  intro s g h
  have := hm s g h
  rw [bind_apply]
  rcases hx : m (s, g) with ⟨_ | a, s1, g1⟩ <;> rw [hx] at this
  · exact this
  · exact hf a s1 g1 this
theorem Pres.get {P : S → Prop} {f : S × T → Py (S × T) α}
    (h : ∀ s g, P s → Pres P (f (s, g))) : Pres P (Py.get >>= f) := fun s g hs => h s g hs s g hs
theorem Pres.modify {P : S → Prop} {h : S × T → S × T} (hh : ∀ s g, P s → P (h (s, g)).1) :
    Pres P (Py.modify h) := hh

theorem OutRel.bind_modify {E : S → S → Prop} {α : Type} {m m' : Py (S × T) α}
    {h h' : α → S × T → S × T} {s s' g}
    (hm : OutRel E (m (s, g)) (m' (s', g)))
    (hh : ∀ a s s' g, E s s' → E (h a (s, g)).1 (h' a (s', g)).1 ∧ (h a (s, g)).2 = (h' a (s', g)).2) :
    OutRel E ((m >>= fun a => Py.modify (h a)) (s, g)) ((m' >>= fun a => Py.modify (h' a)) (s', g)) :=
  hm.bind fun a => Rel.modify (hh a)

end Py

variable {S : Type} (I : Iface S) (M : Sem S)

/-- Semantics of finite arrays. -/
def finArraySem : Sem (FinArray S) where
  Inv a := (∀ c ∈ a.cgpms, M.Inv c) ∧ a.cgpms ≠ [] ∧ (Dict.keys a.rowidToIndex).Nodup
  strip a := { a with cgpms := a.cgpms.map M.strip }
  E a b := List.Forall₂ M.E a.cgpms b.cgpms ∧ a.indexer = b.indexer ∧
    a.rowidToIndex = b.rowidToIndex ∧ a.cgpms ≠ [] ∧ (Dict.keys a.rowidToIndex).Nodup
  shape a := .array (a.cgpms.map M.shape)

namespace FinArray
variable {I M} (L : Laws I M)

theorem onCgpm_cases {α : Type} (i : Val) (m : Py (S × Rng) α) (a : FinArray S) (g : Rng) :
    (∃ e, onCgpm i m (a, g) = (.error e, (a, g))) ∨
    ∃ j c, a.cgpms[j]? = some c ∧ pyIndex a.cgpms.length i = .ok j ∧
      onCgpm i m (a, g) = ((m (c, g)).1,
        ({ a with cgpms := a.cgpms.set j (m (c, g)).2.1 }, (m (c, g)).2.2)) := by
  unfold onCgpm
  rcases hi : pyIndex a.cgpms.length i with e | j
  · exact .inl ⟨e, rfl⟩
  · dsimp only
    rcases hc : a.cgpms[j]? with _ | c
    · exact .inl ⟨_, rfl⟩
    · exact .inr ⟨j, c, hc, rfl, rfl⟩

theorem forall_set {R : S → S → Prop} {l l' : List S} (h : List.Forall₂ R l l') (j : Nat)
    {c c' : S} (hc : R c c') : List.Forall₂ R (l.set j c) (l'.set j c') := by
  induction h generalizing j with
  | nil => exact .nil
  | cons h t ih => cases j with
    | zero => exact .cons hc t
    | succ j => exact .cons h (ih j)

theorem forall_get {R : S → S → Prop} {l l' : List S} (h : List.Forall₂ R l l') (j : Nat) :
    (l[j]? = none ∧ l'[j]? = none) ∨ ∃ c c', l[j]? = some c ∧ l'[j]? = some c' ∧ R c c' := by
  induction h generalizing j with
  | nil => exact .inl ⟨rfl, rfl⟩
  | cons h t ih => cases j with
    | zero => exact .inr ⟨_, _, rfl, rfl, h⟩
    | succ j => simpa using ih j

theorem set_self {l : List S} {j : Nat} {c : S} (h : l[j]? = some c) : l.set j c = l := by
  induction l generalizing j with
  | nil => rfl
  | cons a l ih => cases j with
    | zero => simp_all
    | succ j => simp_all

theorem onCgpm_error {α : Type} {i : Val} {m : Py (S × Rng) α} {a : FinArray S} {e : Err}
    (h : pyIndex a.cgpms.length i = .error e) (g : Rng) : onCgpm i m (a, g) = (.error e, (a, g)) := by
  unfold onCgpm; dsimp only; rw [h]

theorem onCgpm_none {α : Type} {i : Val} {m : Py (S × Rng) α} {a : FinArray S} {j : Nat}
    (h : pyIndex a.cgpms.length i = .ok j) (hc : a.cgpms[j]? = none) (g : Rng) :
    onCgpm i m (a, g) = (.error .indexError, (a, g)) := by
  unfold onCgpm; dsimp only; rw [h]; dsimp only; rw [hc]

theorem onCgpm_some {α : Type} {i : Val} {m : Py (S × Rng) α} {a : FinArray S} {j : Nat} {c : S}
    (h : pyIndex a.cgpms.length i = .ok j) (hc : a.cgpms[j]? = some c) (g : Rng) :
    onCgpm i m (a, g) = ((m (c, g)).1,
        ({ a with cgpms := a.cgpms.set j (m (c, g)).2.1 }, (m (c, g)).2.2)) := by
  unfold onCgpm; dsimp only; rw [h]; dsimp only; rw [hc]

theorem rel_onCgpm {α : Type} {m : Py (S × Rng) α} (hm : Py.Rel M.E m m) (i : Val) :
    Py.Rel (finArraySem M).E (onCgpm i m) (onCgpm i m) := by
  intro a b g h
  have hl := h.1.length_eq
  rcases hi : pyIndex b.cgpms.length i with e | j
  · rw [onCgpm_error (hl ▸ hi), onCgpm_error hi]
    exact ⟨rfl, h, rfl⟩
  · rcases forall_get h.1 j with ⟨h1, h2⟩ | ⟨c, c', h1, h2, hcc⟩
    · rw [onCgpm_none (hl ▸ hi) h1, onCgpm_none hi h2]
      exact ⟨rfl, h, rfl⟩
    · rw [onCgpm_some (hl ▸ hi) h1, onCgpm_some hi h2]
      obtain ⟨k1, k2, k3⟩ := hm _ _ g hcc
      refine ⟨k1, ⟨forall_set h.1 j k2, h.2.1, h.2.2.1, ?_, h.2.2.2.2⟩, k3⟩
      simpa using h.2.2.2.1

theorem keeps_onCgpm {α : Type} {m : Py (S × Rng) α} (hm : Py.Keeps M.E m) (i : Val) :
    Py.Keeps (finArraySem M).E (onCgpm i m) := by
  intro a g h
  rcases onCgpm_cases i m a g with ⟨e, he⟩ | ⟨j, c, hc, hj, he⟩ <;> rw [he]
  · exact h
  · refine ⟨?_, h.2⟩
    rcases forall_get h.1 j with ⟨h1, h2⟩ | ⟨c1, c2, h1, h2, hcc⟩
    · rw [hc] at h1; cases h1
    · rw [hc] at h1 h2; cases h1; cases h2
      have := forall_set h.1 j (hm c g hcc)
      rwa [set_self hc] at this

theorem noDraw_onCgpm {α : Type} {m : Py (S × Rng) α} (hm : Py.NoDraw m) (i : Val) :
    Py.NoDraw (onCgpm i m) := by
  intro a g g'
  rcases hi : pyIndex a.cgpms.length i with e | j
  · rw [onCgpm_error hi, onCgpm_error hi]; exact ⟨rfl, rfl, rfl⟩
  · rcases hc : a.cgpms[j]? with _ | c
    · rw [onCgpm_none hi hc, onCgpm_none hi hc]; exact ⟨rfl, rfl, rfl⟩
    · rw [onCgpm_some hi hc, onCgpm_some hi hc]
      obtain ⟨k1, k2, k3⟩ := hm c g g'
      exact ⟨k1, by simp only [k2], k3⟩

/-- What is preserved by an update: invariant and the attributes of the components. -/
def Fine (I : Iface S) (M : Sem S) (l : List (List Var × List Var × Shape)) (x : Var)
    (a : FinArray S) : Prop :=
  (finArraySem M).Inv a ∧ a.cgpms.map (attrs I M) = l ∧ a.indexer = x

theorem Fine.attrs_eq {a b : FinArray S} {l x} (ha : Fine I M l x a) (hb : Fine I M l x b) :
    attrs (finArrayI I) (finArraySem M) a = attrs (finArrayI I) (finArraySem M) b := by
  have hl : a.cgpms.map (attrs I M) = b.cgpms.map (attrs I M) := ha.2.1.trans hb.2.1.symm
  have hx : a.indexer = b.indexer := ha.2.2.trans hb.2.2.symm
  have h3 : a.cgpms.length = b.cgpms.length := by simpa using congrArg List.length hl
  have hs := attrs_shape hl
  rcases a with ⟨_ | ⟨c, l⟩, x, d⟩ <;> rcases b with ⟨_ | ⟨c', l'⟩, x', d'⟩
  · exact absurd rfl ha.1.2.1
  · cases h3
  · cases h3
  · simp only [List.map_cons, List.cons.injEq] at hl
    simp only [attrs, Prod.mk.injEq] at hl ⊢
    simp only [finArrayI, outputs, inputs, finArraySem]
    exact ⟨hl.1.1, by rw [hl.1.2.1]; simpa using hx, congrArg Shape.array hs⟩

theorem pres_onCgpm {α : Type} {m : Py (S × Rng) α}
    (h1 : ∀ s g, M.Inv s → M.Inv (m (s, g)).2.1)
    (h2 : ∀ s g, M.Inv s → attrs I M (m (s, g)).2.1 = attrs I M s) (i : Val) (l x) :
    Py.Pres (Fine I M l x) (onCgpm i m) := by
  intro a g h
  rcases onCgpm_cases i m a g with ⟨e, he⟩ | ⟨j, c, hc, hj, he⟩ <;> rw [he]
  · exact h
  · have hci : M.Inv c := h.1.1 c (List.mem_of_getElem? hc)
    refine ⟨⟨?_, by simpa using h.1.2.1, h.1.2.2⟩, ?_, h.2.2⟩
    · intro c' hc'
      rcases List.mem_or_eq_of_mem_set hc' with h' | rfl
      · exact h.1.1 c' h'
      · exact h1 c g hci
    · rw [List.map_set, h2 c g hci, set_self, h.2.1]
      rw [List.getElem?_map, hc]; rfl

theorem pres_setRow (r : RowId) (i : Val) (l x) :
    Py.Pres (T := Rng) (Fine I M l x) (Py.modify fun st =>
      ({ st.1 with rowidToIndex := Dict.set st.1.rowidToIndex r i }, st.2)) :=
  Py.Pres.modify fun _ _ h => ⟨⟨h.1.1, h.1.2.1, Dict.nodup_keys_set _ _ _ h.1.2.2⟩, h.2⟩

theorem pres_delRow (r : RowId) (l x) :
    Py.Pres (T := Rng) (Fine I M l x) (Py.modify fun st =>
      ({ st.1 with rowidToIndex := Dict.del st.1.rowidToIndex r }, st.2)) :=
  Py.Pres.modify fun _ _ h => ⟨⟨h.1.1, h.1.2.1, Dict.nodup_keys_del _ _ h.1.2.2⟩, h.2⟩

theorem rel_setRow (r : RowId) (i : Val) :
    Py.Rel (T := Rng) (finArraySem M).E (Py.modify fun st =>
      ({ st.1 with rowidToIndex := Dict.set st.1.rowidToIndex r i }, st.2)) (Py.modify fun st =>
      ({ st.1 with rowidToIndex := Dict.set st.1.rowidToIndex r i }, st.2)) :=
  Py.Rel.modify fun s s' _ h => ⟨⟨h.1, h.2.1, by
    change Dict.set s.rowidToIndex r i = Dict.set s'.rowidToIndex r i
    rw [h.2.2.1], h.2.2.2.1, Dict.nodup_keys_set _ _ _ h.2.2.2.2⟩, rfl⟩

theorem rel_delRow (r : RowId) :
    Py.Rel (T := Rng) (finArraySem M).E (Py.modify fun st =>
      ({ st.1 with rowidToIndex := Dict.del st.1.rowidToIndex r }, st.2)) (Py.modify fun st =>
      ({ st.1 with rowidToIndex := Dict.del st.1.rowidToIndex r }, st.2)) :=
  Py.Rel.modify fun s s' _ h => ⟨⟨h.1, h.2.1, by
    change Dict.del s.rowidToIndex r = Dict.del s'.rowidToIndex r
    rw [h.2.2.1], h.2.2.2.1, Dict.nodup_keys_del _ _ h.2.2.2.2⟩, rfl⟩

include L in
theorem pres_observe (r o i l x) : Py.Pres (Fine I M l x) (observe I r o i) :=
  Py.Pres.get fun _ _ _ => (Py.Pres.lift _ _).bind fun _ =>
    (pres_onCgpm (fun _ _ h => L.inv_observe h ..) (fun _ _ h => L.observe_attrs _ _ _ _ _ h)
      _ _ _).bind fun _ => pres_setRow _ _ _ _

include L in
theorem pres_unobserve (r l x) : Py.Pres (Fine I M l x) (unobserve I r) :=
  Py.Pres.get fun _ _ _ => (Py.Pres.lift _ _).bind fun _ => (pres_delRow _ _ _).bind fun _ =>
    pres_onCgpm (fun _ _ h => L.inv_unobserve h ..) (fun _ _ h => L.unobserve_attrs _ _ _ h) _ _ _

theorem not_scored (a : FinArray S) (h : (finArraySem M).Inv a) : ¬ Scored (finArrayI I) a := by
  rintro ⟨x, hx⟩
  rcases a with ⟨_ | ⟨c, l⟩, _, _⟩
  · exact h.2.1 rfl
  · cases hx

theorem E_refl_right (Lr : ∀ s s', M.E s s' → M.E s' s') {a b : FinArray S}
    (h : (finArraySem M).E a b) : (finArraySem M).E b b := by
  refine ⟨?_, rfl, rfl, ?_, h.2.2.1 ▸ h.2.2.2.2⟩
  · have : ∀ {l l' : List S}, List.Forall₂ M.E l l' → List.Forall₂ M.E l' l' := by
      intro l l' h
      induction h with
      | nil => exact .nil
      | cons h _ ih => exact .cons (Lr _ _ h) ih
    exact this h.1
  · intro hb
    have := h.1.length_eq
    rw [hb] at this
    exact h.2.2.2.1 (List.length_eq_zero_iff.1 this)

end FinArray

open FinArray in
theorem finArrayLaws {I : Iface S} {M : Sem S} (L : Laws I M) :
    Laws (finArrayI I) (finArraySem M) where
  refl a h := ⟨forall_refl L h.1, rfl, rfl, h.2⟩
  symm a b h := ⟨forall_symm L h.1, h.2.1.symm, h.2.2.1.symm,
    (E_refl_right L.refl_right h).2.2.2⟩
  trans a b c h h' := ⟨forall_trans L h.1 h'.1, h.2.1.trans h'.2.1, h.2.2.1.trans h'.2.2.1, h.2.2.2⟩
  inv a b h := ⟨forall_inv L h.1, h.2.2.2⟩
  attrs_E a b h := Fine.attrs_eq (x := b.indexer) ⟨⟨forall_inv L h.1, h.2.2.2⟩,
    attrs_forall L h.1, h.2.1⟩
    ⟨⟨forall_inv L (forall_symm L h.1), (E_refl_right L.refl_right h).2.2.2⟩, rfl, rfl⟩
  score_E a b h := by
    have := h.1.length_eq
    rcases a with ⟨_ | ⟨c, l⟩, _, _⟩ <;> rcases b with ⟨_ | ⟨c', l'⟩, _, _⟩ <;>
      first | rfl | cases this
  observe r o i := Py.Rel.get2 (fun a b g h => by simp only [h.2.1])
    (fun _ _ _ => (Py.Rel.lift _).bind fun _ => (rel_onCgpm (L.observe _ _ _) _).bind fun _ =>
      rel_setRow _ _) fun _ _ h => E_refl_right L.refl_right h
  unobserve r := Py.Rel.get2 (fun a b g h => by simp only [h.2.2.1])
    (fun _ _ _ => (Py.Rel.lift _).bind fun _ => (rel_delRow _).bind fun _ =>
      rel_onCgpm (L.unobserve _) _) fun _ _ h => E_refl_right L.refl_right h
  logpdf r t c i := Py.Rel.get2 (fun a b g h => by simp only [h.2.1])
    (fun _ _ _ => (Py.Rel.lift _).bind fun _ => rel_onCgpm (L.logpdf _ _ _ _) _)
    fun _ _ h => E_refl_right L.refl_right h
  simulate r t c i N := Py.Rel.get2 (fun a b g h => by simp only [h.2.1])
    (fun _ _ _ => (Py.Rel.lift _).bind fun _ => rel_onCgpm (L.simulate _ _ _ _ _) _)
    fun _ _ h => E_refl_right L.refl_right h
  observe_attrs r o i a g h :=
    (pres_observe L r o i _ _ a g ⟨h, rfl, rfl⟩).attrs_eq ⟨h, rfl, rfl⟩
  unobserve_attrs r a g h :=
    (pres_unobserve L r _ _ a g ⟨h, rfl, rfl⟩).attrs_eq ⟨h, rfl, rfl⟩
  observe_scored r o i a g h hs := (not_scored a h hs).elim
  unobserve_scored r a g h hs := (not_scored a h hs).elim
  unobserve_noDraw r := Py.NoDraw.get fun a g g' => by
    refine Py.NoDraw.bind (Py.NoDraw.lift _) (fun _ => Py.NoDraw.bind ?_ fun _ =>
      noDraw_onCgpm (L.unobserve_noDraw r) _) a g g'
    exact fun _ _ _ => ⟨rfl, rfl, rfl⟩
  logpdf_noDraw r t c i := Py.NoDraw.get fun a g g' =>
    Py.NoDraw.bind (Py.NoDraw.lift _) (fun _ => noDraw_onCgpm (L.logpdf_noDraw _ _ _ _) _) a g g'
  logpdf_keeps r t c i := Py.Keeps.get fun a g h => by
    dsimp only
    rw [Py.lift_bind]
    split
    · exact keeps_onCgpm (L.logpdf_keeps _ _ _ _) _ a g h
    · exact h
  simulate_keeps r t c i N := Py.Keeps.get fun a g h => by
    dsimp only
    rw [Py.lift_bind]
    split
    · exact keeps_onCgpm (L.simulate_keeps _ _ _ _ _) _ a g h
    · exact h
  clone a h := by
    change FinArray.fromMetadata I (.finiteArray (a.cgpms.map I.toMetadata) _ _) = _
    have : (a.cgpms.map I.toMetadata).mapM I.fromMetadata = .ok (a.cgpms.map M.strip) := by
      rw [List.mapM_map]
      exact mapM_ok _ _ _ fun c hc => L.clone c (h.1 c hc)
    rcases a with ⟨_ | ⟨c, l⟩, x, d⟩
    · exact absurd rfl h.2.1
    · simp only [FinArray.fromMetadata, this, bind, Except.bind, Dict.update_nil_left _ h.2.2]
      rfl
  strip a h := ⟨forall_strip L h.1, rfl, rfl, h.2⟩

end Cgpm2
