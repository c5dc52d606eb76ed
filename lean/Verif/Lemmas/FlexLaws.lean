import Verif.Lemmas.ArrayLaws

/-!
# Flexible arrays satisfy the laws (helpers)
-/

namespace Cgpm2

variable {S : Type}

/-- The component at index `k`: the stored one, or the copy of the base that the first access
creates. -/
def FlexArray.comp (M : Sem S) (a : FlexArray S) (k : Val) : S :=
  (Dict.get? a.cgpms k).getD (M.strip a.base)

/-- A component has a score and the structure of the base. -/
def Copy (I : Iface S) (M : Sem S) (b c : S) : Prop := Scored I c ∧ M.shape c = M.shape b

/-- Semantics of flexible arrays. -/
def flexArraySem (I : Iface S) (M : Sem S) : Sem (FlexArray S) where
  Inv a := (M.Inv a.base ∧ I.logpdfScore a.base = .ok 0) ∧
    (∀ k, M.Inv (a.comp M k) ∧ Copy I M a.base (a.comp M k)) ∧
    (Dict.keys a.cgpms).Nodup ∧ (Dict.keys a.rowidToIndex).Nodup
  strip a := { a with base := M.strip a.base, cgpms := a.cgpms.map fun kc => (kc.1, M.strip kc.2) }
  E a b := M.E a.base b.base ∧ a.indexer = b.indexer ∧ a.rowidToIndex = b.rowidToIndex ∧
    (∀ k, M.E (a.comp M k) (b.comp M k)) ∧ I.logpdfScore a.base = .ok 0 ∧
    (∀ k, Copy I M a.base (a.comp M k)) ∧
    (Dict.keys a.cgpms).Nodup ∧ (Dict.keys b.cgpms).Nodup ∧ (Dict.keys a.rowidToIndex).Nodup
  shape a := M.shape a.base

namespace FlexArray
variable {I : Iface S} {M : Sem S} (L : Laws I M)

theorem comp_set (a : FlexArray S) (i k : Val) (c : S) :
    ({ a with cgpms := Dict.set a.cgpms i c } : FlexArray S).comp M k =
      if k = i then c else a.comp M k := by
  unfold comp
  dsimp only
  rw [Dict.get?_set]
  by_cases h : i = k
  · simp [h]
  · simp [h, Ne.symm h]

include L in
theorem onCgpm_eq {α : Type} (i : Val) (m : Py (S × Rng) α) (a : FlexArray S) (g : Rng)
    (h : M.Inv a.base) :
    onCgpm I i m (a, g) = ((m (a.comp M i, g)).1,
      ({ a with cgpms := Dict.set a.cgpms i (m (a.comp M i, g)).2.1 },
        (m (a.comp M i, g)).2.2)) := by
  unfold onCgpm comp
  dsimp only
  rcases hc : Dict.get? a.cgpms i with _ | c
  · dsimp only
    rw [L.clone _ h]
    rfl
  · rfl

/-- The score of a component, as a number. -/
noncomputable def sc (I : Iface S) (c : S) : Fl :=
  match I.logpdfScore c with
  | .ok x => x
  | .error _ => 0

theorem sc_ok {c : S} (h : Scored I c) : I.logpdfScore c = .ok (sc I c) := by
  obtain ⟨x, hx⟩ := h
  rw [sc, hx]

theorem score_values (f : S → Fl) (d : Dict Val S) (z : S) (nd : (Dict.keys d).Nodup) :
    ((Dict.values d).map f).sum = ∑ k ∈ (Dict.keys d).toFinset, f ((Dict.get? d k).getD z) := by
  induction d with
  | nil => simp
  | cons kv d ih =>
    obtain ⟨k, v⟩ := kv
    simp only [Dict.keys_cons, List.nodup_cons] at nd
    simp only [Dict.values_cons, Dict.keys_cons, List.map_cons, List.sum_cons, List.toFinset_cons]
    rw [Finset.sum_insert (by simpa using nd.1), ih nd.2]
    congr 1
    · simp [Dict.get?_cons]
    · apply Finset.sum_congr rfl
      intro k' hk'
      have : k' ≠ k := by rintro rfl; exact nd.1 (by simpa using hk')
      rw [Dict.get?_cons]; simp [Ne.symm this]

theorem Inv.mem {a : FlexArray S} (h : (flexArraySem I M).Inv a) {c : S}
    (hc : c ∈ Dict.values a.cgpms) : M.Inv c ∧ Scored I c := by
  obtain ⟨⟨k, c'⟩, hk, rfl⟩ := List.mem_map.1 hc
  have := h.2.1 k
  rw [comp, Dict.get?_of_mem h.2.2.1 hk] at this
  exact ⟨this.1, this.2.1⟩

include L in
theorem score_eq {a : FlexArray S} (h : (flexArraySem I M).Inv a) :
    ∀ K : Finset Val, (Dict.keys a.cgpms).toFinset ⊆ K →
    logpdfScore I a = .ok (∑ k ∈ K, sc I (a.comp M k)) := by
  intro K hK
  have h1 : (Dict.values a.cgpms).mapM I.logpdfScore = .ok ((Dict.values a.cgpms).map (sc I)) := by
    apply mapM_ok
    intro c hc
    exact sc_ok (Inv.mem h hc).2
  rw [logpdfScore, h1]
  simp only [bind, Except.bind, pure, Except.pure, Except.ok.injEq]
  rw [Fl.sum_eq, score_values (sc I) _ (M.strip a.base) h.2.2.1]
  apply Finset.sum_subset hK
  intro k _ hk
  have : Dict.get? a.cgpms k = none := by
    rw [Dict.get?_eq_none_iff]; simpa using hk
  rw [this]
  simp only [Option.getD_none, sc]
  rw [← L.score_E _ _ (L.strip _ h.1.1), h.1.2]

theorem scored {a : FlexArray S} (h : (flexArraySem I M).Inv a) : Scored (flexArrayI I) a :=
  (sumScore_fin_iff I.logpdfScore (Dict.values a.cgpms)).2 fun _ hc => (Inv.mem h hc).2

include L in
theorem inv_of_E {a b : FlexArray S} (h : (flexArraySem I M).E a b) : (flexArraySem I M).Inv a :=
  ⟨⟨L.inv _ _ h.1, h.2.2.2.2.1⟩, fun k => ⟨L.inv _ _ (h.2.2.2.1 k), h.2.2.2.2.2.1 k⟩,
    h.2.2.2.2.2.2.1, h.2.2.2.2.2.2.2.2⟩

include L in
theorem E_symm {a b : FlexArray S} (h : (flexArraySem I M).E a b) : (flexArraySem I M).E b a := by
  obtain ⟨h1, h2, h3, h4, h5, h6, h7, h8, h9⟩ := h
  refine ⟨L.symm _ _ h1, h2.symm, h3.symm, fun k => L.symm _ _ (h4 k), ?_, fun k => ?_, h8, h7,
    h3 ▸ h9⟩
  · rw [← L.score_E _ _ h1, h5]
  · exact ⟨(L.scored_E (h4 k)).1 (h6 k).1, by rw [← L.shape_E (h4 k), ← L.shape_E h1, (h6 k).2]⟩

include L in
theorem E_refl {a : FlexArray S} (h : (flexArraySem I M).Inv a) : (flexArraySem I M).E a a :=
  ⟨L.refl _ h.1.1, rfl, rfl, fun k => L.refl _ (h.2.1 k).1, h.1.2, fun k => (h.2.1 k).2,
    h.2.2.1, h.2.2.1, h.2.2.2⟩

include L in
theorem copy_observe (r o i) (b s : S) (g : Rng) (h : M.Inv s) (hs : Copy I M b s) :
    Copy I M b (I.observe r o i (s, g)).2.1 :=
  ⟨L.observe_scored _ _ _ _ _ h hs.1, (L.shape_observe h ..).trans hs.2⟩

include L in
theorem copy_unobserve (r) (b s : S) (g : Rng) (h : M.Inv s) (hs : Copy I M b s) :
    Copy I M b (I.unobserve r (s, g)).2.1 :=
  ⟨L.unobserve_scored _ _ _ h hs.1, (L.shape_unobserve h ..).trans hs.2⟩

include L in
theorem keeps_copy {α : Type} {m : Py (S × Rng) α} (hm : Py.Keeps M.E m) (b s g)
    (h : M.Inv s) (hs : Copy I M b s) : Copy I M b (m (s, g)).2.1 :=
  ⟨(L.scored_E (hm s g (L.refl s h))).1 hs.1, (L.shape_E (hm s g (L.refl s h))).symm.trans hs.2⟩

include L in
theorem rel_onCgpm {α : Type} {m : Py (S × Rng) α} (hm : Py.Rel M.E m m)
    (hs : ∀ b s g, M.Inv s → Copy I M b s → Copy I M b (m (s, g)).2.1) (i : Val) :
    Py.Rel (flexArraySem I M).E (onCgpm I i m) (onCgpm I i m) := by
  intro a b g h
  obtain ⟨h1, h2, h3, h4, h5, h6, h7, h8, h9⟩ := h
  rw [onCgpm_eq L i m a g (L.inv _ _ h1), onCgpm_eq L i m b g (L.inv' h1)]
  obtain ⟨k1, k2, k3⟩ := hm _ _ g (h4 i)
  refine ⟨k1, ⟨h1, h2, h3, fun k => ?_, h5, fun k => ?_, Dict.nodup_keys_set _ _ _ h7,
    Dict.nodup_keys_set _ _ _ h8, h9⟩, k3⟩
  · rw [comp_set, comp_set]
    split
    · exact k2
    · exact h4 k
  · rw [comp_set]
    split
    · exact hs _ _ _ (L.inv _ _ (h4 i)) (h6 i)
    · exact h6 k

include L in
theorem keeps_onCgpm {α : Type} {m : Py (S × Rng) α} (hm : Py.Keeps M.E m) (i : Val) :
    Py.Keeps (flexArraySem I M).E (onCgpm I i m) := by
  intro a g h
  obtain ⟨h1, h2, h3, h4, h5, h6, h7, h8, h9⟩ := h
  rw [onCgpm_eq L i m a g (L.inv _ _ h1)]
  refine ⟨h1, h2, h3, fun k => ?_, h5, h6, h7, Dict.nodup_keys_set _ _ _ h7, h9⟩
  rw [comp_set]
  split
  · subst k; exact hm _ _ (h4 i)
  · exact h4 k

theorem noDraw_onCgpm {α : Type} {m : Py (S × Rng) α} (hm : Py.NoDraw m) (i : Val) :
    Py.NoDraw (onCgpm I i m) := by
  intro a g g'
  unfold onCgpm
  dsimp only
  rcases hc : Dict.get? a.cgpms i with _ | c
  · dsimp only
    rcases I.clone a.base with e | c
    · exact ⟨rfl, rfl, rfl⟩
    · obtain ⟨k1, k2, k3⟩ := hm c g g'
      exact ⟨k1, by simp only [k2], k3⟩
  · obtain ⟨k1, k2, k3⟩ := hm c g g'
    exact ⟨k1, by simp only [k2], k3⟩

/-- What is preserved by an update. -/
def Fine (I : Iface S) (M : Sem S) (b : S) (x : Var) (a : FlexArray S) : Prop :=
  (flexArraySem I M).Inv a ∧ a.base = b ∧ a.indexer = x

theorem Fine.attrs_eq {a b : FlexArray S} {l x} (ha : Fine I M l x a) (hb : Fine I M l x b) :
    attrs (flexArrayI I) (flexArraySem I M) a = attrs (flexArrayI I) (flexArraySem I M) b := by
  simp only [attrs, flexArrayI, outputs, inputs, flexArraySem, ha.2.1, hb.2.1, ha.2.2, hb.2.2]

include L in
theorem pres_onCgpm {α : Type} {m : Py (S × Rng) α}
    (h1 : ∀ s g, M.Inv s → M.Inv (m (s, g)).2.1)
    (h2 : ∀ b s g, M.Inv s → Copy I M b s → Copy I M b (m (s, g)).2.1) (i : Val) (l x) :
    Py.Pres (Fine I M l x) (onCgpm I i m) := by
  rintro a g ⟨⟨k1, k2, k3, k4⟩, k5, k6⟩
  rw [onCgpm_eq L i m a g k1.1]
  refine ⟨⟨k1, fun k => ?_, Dict.nodup_keys_set _ _ _ k3, k4⟩, k5, k6⟩
  rw [comp_set]
  split
  · exact ⟨h1 _ _ (k2 i).1, h2 _ _ _ (k2 i).1 (k2 i).2⟩
  · exact k2 k

theorem pres_setRow (r : RowId) (i : Val) (l x) :
    Py.Pres (T := Rng) (Fine I M l x) (Py.modify fun st =>
      ({ st.1 with rowidToIndex := Dict.set st.1.rowidToIndex r i }, st.2)) :=
  Py.Pres.modify fun _ _ h => ⟨⟨h.1.1, h.1.2.1, h.1.2.2.1, Dict.nodup_keys_set _ _ _ h.1.2.2.2⟩, h.2⟩

theorem pres_delRow (r : RowId) (l x) :
    Py.Pres (T := Rng) (Fine I M l x) (Py.modify fun st =>
      ({ st.1 with rowidToIndex := Dict.del st.1.rowidToIndex r }, st.2)) :=
  Py.Pres.modify fun _ _ h => ⟨⟨h.1.1, h.1.2.1, h.1.2.2.1, Dict.nodup_keys_del _ _ h.1.2.2.2⟩, h.2⟩

theorem rel_setRow (r : RowId) (i : Val) :
    Py.Rel (T := Rng) (flexArraySem I M).E (Py.modify fun st =>
      ({ st.1 with rowidToIndex := Dict.set st.1.rowidToIndex r i }, st.2)) (Py.modify fun st =>
      ({ st.1 with rowidToIndex := Dict.set st.1.rowidToIndex r i }, st.2)) :=
  Py.Rel.modify fun s s' _ h => by
    obtain ⟨h1, h2, h3, h4, h5, h6, h7, h8, h9⟩ := h
    refine ⟨⟨h1, h2, ?_, h4, h5, h6, h7, h8, Dict.nodup_keys_set _ _ _ h9⟩, rfl⟩
    change Dict.set s.rowidToIndex r i = Dict.set s'.rowidToIndex r i
    rw [h3]

theorem rel_delRow (r : RowId) :
    Py.Rel (T := Rng) (flexArraySem I M).E (Py.modify fun st =>
      ({ st.1 with rowidToIndex := Dict.del st.1.rowidToIndex r }, st.2)) (Py.modify fun st =>
      ({ st.1 with rowidToIndex := Dict.del st.1.rowidToIndex r }, st.2)) :=
  Py.Rel.modify fun s s' _ h => by
    obtain ⟨h1, h2, h3, h4, h5, h6, h7, h8, h9⟩ := h
    refine ⟨⟨h1, h2, ?_, h4, h5, h6, h7, h8, Dict.nodup_keys_del _ _ h9⟩, rfl⟩
    change Dict.del s.rowidToIndex r = Dict.del s'.rowidToIndex r
    rw [h3]

include L in
theorem pres_observe (r o i l x) : Py.Pres (Fine I M l x) (observe I r o i) :=
  Py.Pres.get fun _ _ _ => (Py.Pres.lift _ _).bind fun _ =>
    (pres_onCgpm L (fun _ _ h => L.inv_observe h ..) (copy_observe L _ _ _)
      _ _ _).bind fun _ => pres_setRow _ _ _ _

include L in
theorem pres_unobserve (r l x) : Py.Pres (Fine I M l x) (unobserve I r) :=
  Py.Pres.get fun _ _ _ => (Py.Pres.lift _ _).bind fun _ => (pres_delRow _ _ _).bind fun _ =>
    pres_onCgpm L (fun _ _ h => L.inv_unobserve h ..) (copy_unobserve L _) _ _ _

theorem get?_mapStrip (d : Dict Val S) (f : S → S) (k : Val) :
    Dict.get? (d.map fun kc => (kc.1, f kc.2)) k = (Dict.get? d k).map f := by
  induction d with
  | nil => rfl
  | cons kv d ih =>
    rw [List.map_cons, Dict.get?_cons, ih, show kv = (kv.1, kv.2) from rfl, Dict.get?_cons]
    split <;> rfl

theorem keys_mapStrip (d : Dict Val S) (f : S → S) :
    Dict.keys (d.map fun kc => (kc.1, f kc.2)) = Dict.keys d := by
  simp [Dict.keys, Function.comp_def]

end FlexArray

open FlexArray in
theorem flexArrayLaws {I : Iface S} {M : Sem S} (L : Laws I M) :
    Laws (flexArrayI I) (flexArraySem I M) where
  refl a h := E_refl L h
  symm a b h := E_symm L h
  trans a b c h h' := ⟨L.trans _ _ _ h.1 h'.1, h.2.1.trans h'.2.1, h.2.2.1.trans h'.2.2.1,
    fun k => L.trans _ _ _ (h.2.2.2.1 k) (h'.2.2.2.1 k), h.2.2.2.2.1, h.2.2.2.2.2.1,
    h.2.2.2.2.2.2.1, h'.2.2.2.2.2.2.2.1, h.2.2.2.2.2.2.2.2⟩
  inv a b h := inv_of_E L h
  attrs_E a b h := by
    simp only [attrs, flexArrayI, outputs, inputs, flexArraySem, L.outputs_E h.1, L.inputs_E h.1,
      h.2.1, L.shape_E h.1]
  score_E a b h := by
    have hb := inv_of_E L (E_symm L h)
    have ha := inv_of_E L h
    let K := (Dict.keys a.cgpms).toFinset ∪ (Dict.keys b.cgpms).toFinset
    change logpdfScore I a = logpdfScore I b
    rw [score_eq L ha K Finset.subset_union_left, score_eq L hb K Finset.subset_union_right]
    congr 1
    apply Finset.sum_congr rfl
    intro k _
    rw [sc, sc, L.score_E _ _ (h.2.2.2.1 k)]
  observe r o i := Py.Rel.get2 (fun a b g h => by simp only [h.2.1])
    (fun _ _ _ => (Py.Rel.lift _).bind fun _ =>
      (rel_onCgpm L (L.observe _ _ _) (copy_observe L _ _ _) _).bind fun _ =>
      rel_setRow _ _) fun _ _ h => E_refl L (inv_of_E L (E_symm L h))
  unobserve r := Py.Rel.get2 (fun a b g h => by simp only [h.2.2.1])
    (fun _ _ _ => (Py.Rel.lift _).bind fun _ => (rel_delRow _).bind fun _ =>
      rel_onCgpm L (L.unobserve _) (copy_unobserve L _) _)
    fun _ _ h => E_refl L (inv_of_E L (E_symm L h))
  logpdf r t c i := Py.Rel.get2 (fun a b g h => by simp only [h.2.1])
    (fun _ _ _ => (Py.Rel.lift _).bind fun _ => rel_onCgpm L (L.logpdf _ _ _ _)
      (keeps_copy L (L.logpdf_keeps _ _ _ _)) _)
    fun _ _ h => E_refl L (inv_of_E L (E_symm L h))
  simulate r t c i N := Py.Rel.get2 (fun a b g h => by simp only [h.2.1])
    (fun _ _ _ => (Py.Rel.lift _).bind fun _ => rel_onCgpm L (L.simulate _ _ _ _ _)
      (keeps_copy L (L.simulate_keeps _ _ _ _ _)) _)
    fun _ _ h => E_refl L (inv_of_E L (E_symm L h))
  observe_attrs r o i a g h :=
    (pres_observe L r o i _ _ a g ⟨h, rfl, rfl⟩).attrs_eq ⟨h, rfl, rfl⟩
  unobserve_attrs r a g h :=
    (pres_unobserve L r _ _ a g ⟨h, rfl, rfl⟩).attrs_eq ⟨h, rfl, rfl⟩
  observe_scored r o i a g h _ := scored (pres_observe L r o i _ _ a g ⟨h, rfl, rfl⟩).1
  unobserve_scored r a g h _ := scored (pres_unobserve L r _ _ a g ⟨h, rfl, rfl⟩).1
  unobserve_noDraw r := Py.NoDraw.get fun a g g' => by
    refine Py.NoDraw.bind (Py.NoDraw.lift _) (fun _ => Py.NoDraw.bind ?_ fun _ =>
      noDraw_onCgpm (L.unobserve_noDraw r) _) a g g'
    exact fun _ _ _ => ⟨rfl, rfl, rfl⟩
  logpdf_noDraw r t c i := Py.NoDraw.get fun a g g' =>
    Py.NoDraw.bind (Py.NoDraw.lift _) (fun _ => noDraw_onCgpm (L.logpdf_noDraw _ _ _ _) _) a g g'
  logpdf_keeps r t c i := Py.Keeps.get fun a g h => by
    dsimp only
    rw [Py.lift_bind]
    split
    · exact keeps_onCgpm L (L.logpdf_keeps _ _ _ _) _ a g h
    · exact h
  simulate_keeps r t c i N := Py.Keeps.get fun a g h => by
    dsimp only
    rw [Py.lift_bind]
    split
    · exact keeps_onCgpm L (L.simulate_keeps _ _ _ _ _) _ a g h
    · exact h
  clone a h := by
    change FlexArray.fromMetadata I (.flexibleArray (I.toMetadata a.base) _ _
      (a.cgpms.map fun ic => (ic.1, I.toMetadata ic.2))) = _
    have h1 : I.fromMetadata (I.toMetadata a.base) = .ok (M.strip a.base) := L.clone _ h.1.1
    have h2 : ((a.cgpms.map fun ic => (ic.1, I.toMetadata ic.2)).mapM fun im => (do
        let c ← I.fromMetadata im.2
        pure (im.1, c) : Except Err (Val × S))) =
        .ok (a.cgpms.map fun kc => (kc.1, M.strip kc.2)) := by
      rw [List.mapM_map]
      apply mapM_ok
      intro kc hkc
      have : I.fromMetadata (I.toMetadata kc.2) = .ok (M.strip kc.2) :=
        L.clone _ (Inv.mem h (List.mem_map_of_mem hkc)).1
      simp only [Function.comp, this]
      rfl
    unfold FlexArray.fromMetadata
    dsimp only
    rw [h1, h2]
    simp only [bind, Except.bind, pure, Except.pure, Dict.update_nil_left _ h.2.2.2]
    rw [Dict.update_nil_left _ (by rw [keys_mapStrip]; exact h.2.2.1)]
    rfl
  strip a h := by
    refine ⟨L.strip _ h.1.1, rfl, rfl, fun k => ?_, h.1.2, fun k => (h.2.1 k).2, h.2.2.1, ?_,
      h.2.2.2⟩
    · have hk := h.2.1 k
      simp only [comp, flexArraySem] at hk ⊢
      rw [get?_mapStrip]
      rcases hc : Dict.get? a.cgpms k with _ | c
      · exact L.strip _ (L.inv_strip h.1.1)
      · rw [hc] at hk
        exact L.strip _ hk.1
    · simp only [flexArraySem]; rw [keys_mapStrip]; exact h.2.2.1

end Cgpm2
