import Verif.Lemmas.BuiltLaws
import Verif.Spec.ChainMeta

/-!
# Chains whose members answer alike answer alike (helpers)
-/

namespace Cgpm2
open Spec

namespace Py
variable {S T α : Type} {E : S → S → Prop}

theorem Rel.atIndex {m : Py (S × T) α} (hm : Rel E m m) (k : Nat) :
    Rel (List.Forall₂ E) (Py.atIndex k m) (Py.atIndex k m) := by
  intro l l' g h
  unfold Py.atIndex OutRel
  dsimp only
  rcases hl : l[k]? with _ | c
  · have : l'[k]? = none := by
      rw [List.getElem?_eq_none_iff] at hl ⊢
      rw [← h.length_eq]; exact hl
    rw [this]
    exact ⟨rfl, h, rfl⟩
  · obtain ⟨hk, rfl⟩ := List.getElem?_eq_some_iff.1 hl
    have hk' : k < l'.length := h.length_eq ▸ hk
    rw [List.getElem?_eq_getElem hk']
    obtain ⟨h1, h2, h3⟩ := hm _ _ g (h.get hk hk')
    simp only [List.get_eq_getElem] at h1 h2 h3
    dsimp only
    refine ⟨h1, ?_, h3⟩
    rw [List.forall₂_iff_get]
    refine ⟨by simpa using h.length_eq, fun i hi hi' => ?_⟩
    simp only [List.get_eq_getElem, List.getElem_set]
    split
    · exact h2
    · exact h.get (by simpa using hi) (by simpa using hi')

theorem Keeps.atIndex {m : Py (S × T) α} (hm : Keeps E m) (k : Nat) :
    Keeps (List.Forall₂ E) (Py.atIndex k m) := by
  intro l g h
  unfold Py.atIndex
  dsimp only
  rcases hl : l[k]? with _ | c
  · exact h
  · obtain ⟨hk, rfl⟩ := List.getElem?_eq_some_iff.1 hl
    dsimp only
    rw [List.forall₂_iff_get]
    refine ⟨by simp, fun i hi hi' => ?_⟩
    simp only [List.get_eq_getElem, List.getElem_set]
    split
    · rename_i e
      subst e
      exact hm _ g (h.get hk hk)
    · exact h.get hi hi

end Py

variable {S : Type} {I : Iface S} {M : Sem S} (L : Laws I M)

/-- Two lists of members that answer alike; the first has the given outputs and inputs. -/
def MembersE (I : Iface S) (M : Sem S) (A : List (List Var × List Var)) (l l' : List S) : Prop :=
  List.Forall₂ M.E l l' ∧ l.map (ports I) = A

/-- Two chains with members that answer alike, in the same network. -/
structure ChainE (I : Iface S) (M : Sem S) (networkOf : List (List Var × List Var) → Except Err Network)
    (A : List (List Var × List Var)) (c c' : Chain S) : Prop where
  members : MembersE I M A c.cgpms c'.cgpms
  accuracy : c.accuracy = c'.accuracy
  pos : c.accuracy ≠ 0
  net : c.net = c'.net
  sound : networkOf A = .ok c.net

variable {networkOf : List (List Var × List Var) → Except Err Network}
  {A : List (List Var × List Var)}

theorem ports_of_attrs {s s' : S} (h : attrs I M s = attrs I M s') : ports I s = ports I s' := by
  unfold attrs at h
  simp only [Prod.mk.injEq] at h
  simp [ports, h.1, h.2.1]

include L

theorem ports_forall {l l' : List S} (h : List.Forall₂ M.E l l') :
    l.map (ports I) = l'.map (ports I) := by
  induction h with
  | nil => rfl
  | cons h _ ih => rw [List.map_cons, List.map_cons, ih, ports_of_attrs (L.attrs_E _ _ h)]

theorem membersE_trans (a b c : List S) (h : MembersE I M A a b) (h' : MembersE I M A b c) :
    MembersE I M A a c := ⟨forall_trans L h.1 h'.1, h.2⟩

theorem membersE_right (a b : List S) (h : MembersE I M A a b) : MembersE I M A b b :=
  ⟨forall_refl L (forall_inv L (forall_symm L h.1)), by rw [← ports_forall L h.1, h.2]⟩

theorem chainE_trans (a b c : Chain S) (h : ChainE I M networkOf A a b)
    (h' : ChainE I M networkOf A b c) : ChainE I M networkOf A a c :=
  ⟨membersE_trans L _ _ _ h.members h'.members, h.accuracy.trans h'.accuracy, h.pos,
    h.net.trans h'.net, h.sound⟩

theorem chainE_right (a b : Chain S) (h : ChainE I M networkOf A a b) : ChainE I M networkOf A b b :=
  ⟨membersE_right L _ _ h.members, rfl, h.accuracy ▸ h.pos, rfl, h.net ▸ h.sound⟩

theorem chainE_symm (a b : Chain S) (h : ChainE I M networkOf A a b) : ChainE I M networkOf A b a :=
  ⟨⟨forall_symm L h.members.1, (membersE_right L _ _ h.members).2⟩, h.accuracy.symm,
    h.accuracy ▸ h.pos, h.net.symm, h.net ▸ h.sound⟩

omit L in
theorem keeps_members {α : Type} {m : Py (List S × Rng) α} (hm : Py.Keeps (List.Forall₂ M.E) m) :
    Py.Keeps (MembersE I M A) m := fun l g h => ⟨hm l g h.1, h.2⟩

theorem rel_members {α : Type} {m : Py (List S × Rng) α}
    (hm : Py.Rel (List.Forall₂ M.E) m m) (hk : Py.Keeps (List.Forall₂ M.E) m) :
    Py.Rel (MembersE I M A) m m := by
  intro l l' g h
  obtain ⟨h1, h2, h3⟩ := hm l l' g h.1
  refine ⟨h1, ⟨h2, ?_⟩, h3⟩
  rw [← ports_forall L (hk l g (forall_refl L (forall_inv L h.1))), h.2]

omit L in
theorem rel_onMembers {α : Type} {m : Py (List S × Rng) α} (hm : Py.Rel (MembersE I M A) m m) :
    Py.Rel (ChainE I M networkOf A)
      (Py.onAttr Chain.cgpms (fun c l => { c with cgpms := l }) m)
      (Py.onAttr Chain.cgpms (fun c l => { c with cgpms := l }) m) :=
  Py.Rel.onAttr (fun _ _ h => h.members)
    (fun _ _ _ _ h ha => ⟨ha, h.accuracy, h.pos, h.net, h.sound⟩) hm

omit L in
theorem keeps_onMembers {α : Type} {m : Py (List S × Rng) α} (hm : Py.Keeps (MembersE I M A) m) :
    Py.Keeps (ChainE I M networkOf A)
      (Py.onAttr Chain.cgpms (fun c l => { c with cgpms := l }) m) :=
  Py.Keeps.onAttr (fun _ h => h.members)
    (fun _ _ h ha => ⟨ha, h.accuracy, h.pos, h.net, h.sound⟩) hm

theorem rel_eachMember {α : Type} {m : Py (S × Rng) α} (hm : Py.Rel M.E m m)
    (ha : ∀ s g, M.Inv s → attrs I M (m (s, g)).2.1 = attrs I M s) :
    Py.Rel (ChainE I M networkOf A) (Chain.each m) (Chain.each m) := by
  refine rel_onMembers fun l l' g h => ?_
  obtain ⟨h1, h2, h3⟩ := hm.each l l' g h.1
  refine ⟨h1, ⟨h2, ?_⟩, h3⟩
  rw [← h.2]
  exact Py.each_fixes (fun s g hs => ports_of_attrs (ha s g hs)) l (forall_inv L h.1) g

theorem rel_checkInputs {s s' : S} (h : M.E s s') (ts cs ins) :
    Chain.checkInputs I s ts cs ins = Chain.checkInputs I s' ts cs ins := by
  unfold Chain.checkInputs Chain.cgpmInputs
  simp only [L.outputs_E h, L.inputs_E h]

omit L in
theorem keeps_checkInputs (s : S) (ts cs ins) : Py.Keeps M.E (Chain.checkInputs I s ts cs ins) := by
  unfold Chain.checkInputs
  split
  · exact Py.Keeps.assert _
  · exact Py.Keeps.pure _

omit L in
theorem relSelf_checkInputs (s : S) (ts cs ins) :
    Py.Rel M.E (Chain.checkInputs I s ts cs ins) (Chain.checkInputs I s ts cs ins) := by
  unfold Chain.checkInputs
  split
  · exact Py.Rel.assert _
  · exact Py.Rel.pure _

theorem memberWeight_E {s s' : S} (h : M.E s s') (r cs ins) :
    Chain.memberWeight I s r cs ins = Chain.memberWeight I s' r cs ins := by
  unfold Chain.memberWeight Chain.cgpmInputs
  simp only [L.outputs_E h, L.inputs_E h]

theorem rel_memberWeight (s : S) (r cs ins) :
    Py.Rel M.E (Chain.memberWeight I s r cs ins) (Chain.memberWeight I s r cs ins) := by
  unfold Chain.memberWeight
  split
  · exact L.logpdf _ _ _ _
  · exact Py.Rel.pure _

theorem keeps_memberWeight (s : S) (r cs ins) : Py.Keeps M.E (Chain.memberWeight I s r cs ins) := by
  unfold Chain.memberWeight
  split
  · exact L.logpdf_keeps _ _ _ _
  · exact Py.Keeps.pure _

theorem memberSample_E {s s' : S} (h : M.E s s') (r ts cs ins) :
    Chain.memberSample I s r ts cs ins = Chain.memberSample I s' r ts cs ins := by
  unfold Chain.memberSample Chain.cgpmInputs
  simp only [L.outputs_E h, L.inputs_E h]

theorem rel_memberSample (s : S) (r ts cs ins) :
    Py.Rel M.E (Chain.memberSample I s r ts cs ins) (Chain.memberSample I s r ts cs ins) := by
  unfold Chain.memberSample
  split
  · refine (L.simulate _ _ _ _ _).bind fun out => ?_
    cases out
    · exact Py.Rel.pure _
    · exact Py.Rel.throw _
  · exact Py.Rel.pure _

theorem keeps_memberSample (s : S) (r ts cs ins) :
    Py.Keeps M.E (Chain.memberSample I s r ts cs ins) := by
  unfold Chain.memberSample
  split
  · refine (L.simulate_keeps _ _ _ _ _).bind L.trans L.refl_right fun out => ?_
    cases out
    · exact Py.Keeps.pure _
    · exact Py.Keeps.throw _
  · exact Py.Keeps.pure _

theorem rel_invoke (r ts cs ins) :
    Py.Rel M.E (Chain.invokeCgpm I r ts cs ins) (Chain.invokeCgpm I r ts cs ins) := by
  refine Py.Rel.get fun s s' g h => ?_
  dsimp only
  rw [← rel_checkInputs L h, ← memberWeight_E L h, ← memberSample_E L h]
  exact ((relSelf_checkInputs s ts cs ins).bind fun _ => (rel_memberWeight L s r cs ins).bind
    fun _ => (rel_memberSample L s r ts cs ins).bind fun _ => Py.Rel.pure _) s s' g h

theorem keeps_invoke (r ts cs ins) : Py.Keeps M.E (Chain.invokeCgpm I r ts cs ins) := by
  refine Py.Keeps.get fun s g h => ?_
  exact ((keeps_checkInputs s ts cs ins).bind L.trans L.refl_right fun _ =>
    (keeps_memberWeight L s r cs ins).bind L.trans L.refl_right fun _ =>
    (keeps_memberSample L s r ts cs ins).bind L.trans L.refl_right fun _ => Py.Keeps.pure _) s g h

theorem forall_right (a b : List S) (h : List.Forall₂ M.E a b) : List.Forall₂ M.E b b :=
  forall_refl L (forall_inv L (forall_symm L h))

theorem rel_levels (r ts ins) (topo : List Nat) (sample weight) :
    Py.Rel (List.Forall₂ M.E) (Chain.levels I r ts ins topo sample weight)
      (Chain.levels I r ts ins topo sample weight) := by
  induction topo generalizing sample weight with
  | nil => exact Py.Rel.pure _
  | cons k topo ih => exact ((rel_invoke L r ts sample ins).atIndex k).bind fun _ => ih _ _

theorem keeps_levels (r ts ins) (topo : List Nat) (sample weight) :
    Py.Keeps (List.Forall₂ M.E) (Chain.levels I r ts ins topo sample weight) := by
  induction topo generalizing sample weight with
  | nil => exact Py.Keeps.pure _
  | cons k topo ih =>
    exact Py.Keeps.bind (E := List.Forall₂ M.E) (fun _ _ _ h h' => forall_trans L h h')
      (forall_right L) ((keeps_invoke L r ts sample ins).atIndex k) fun _ => ih _ _

theorem rel_weightedSample (r ts cs ins) :
    Py.Rel (ChainE I M networkOf A) (Chain.weightedSample I r ts cs ins)
      (Chain.weightedSample I r ts cs ins) := by
  refine Py.Rel.get fun c c' g h => ?_
  dsimp only
  rw [← h.net]
  exact ((rel_onMembers (rel_members L (rel_levels L r _ ins _ _ _)
    (keeps_levels L r _ ins _ _ _))).bind fun _ =>
      (Py.Rel.assert _).bind fun _ => Py.Rel.pure _) c c' g h

theorem keeps_weightedSample (r ts cs ins) :
    Py.Keeps (ChainE I M networkOf A) (Chain.weightedSample I r ts cs ins) := by
  refine Py.Keeps.get fun c g h => ?_
  exact ((keeps_onMembers (keeps_members (keeps_levels L r _ ins _ _ _))).bind
    (chainE_trans L) (chainE_right L) fun _ =>
      (Py.Keeps.assert _).bind (chainE_trans L) (chainE_right L) fun _ => Py.Keeps.pure _) c g h

theorem rel_weightedSamples (r ts cs ins) :
    Py.Rel (ChainE I M networkOf A) (Chain.weightedSamples I r ts cs ins)
      (Chain.weightedSamples I r ts cs ins) := by
  refine Py.Rel.get fun c c' g h => ?_
  dsimp only
  rw [← h.accuracy]
  exact Py.Rel.mapL (fun _ => rel_weightedSample L r ts cs ins) _ c c' g h

theorem keeps_weightedSamples (r ts cs ins) :
    Py.Keeps (ChainE I M networkOf A) (Chain.weightedSamples I r ts cs ins) := by
  refine Py.Keeps.get fun c g h => ?_
  exact Py.Keeps.mapL (chainE_trans L) (chainE_right L)
    (fun _ => keeps_weightedSample L r ts cs ins) _ c g h

theorem rel_marginal (r cs ins) : Py.Rel (ChainE I M networkOf A)
    (Chain.marginalWeights I r cs ins) (Chain.marginalWeights I r cs ins) := by
  unfold Chain.marginalWeights
  split
  · exact (rel_weightedSamples L r [] cs ins).bind fun _ => Py.Rel.pure _
  · exact Py.Rel.pure _

theorem keeps_marginal (r cs ins) : Py.Keeps (ChainE I M networkOf A)
    (Chain.marginalWeights I r cs ins) := by
  unfold Chain.marginalWeights
  split
  · exact (keeps_weightedSamples L r [] cs ins).bind (chainE_trans L) (chainE_right L)
      fun _ => Py.Keeps.pure _
  · exact Py.Keeps.pure _

theorem rel_chainLogpdf (r ts cs ins) : Py.Rel (ChainE I M networkOf A)
    (Chain.logpdf I r ts cs ins) (Chain.logpdf I r ts cs ins) := by
  refine (rel_weightedSamples L r [] _ ins).bind fun _ => (rel_marginal L r cs ins).bind fun _ => ?_
  split
  · exact Py.Rel.throw _
  · exact Py.Rel.pure _

theorem keeps_chainLogpdf (r ts cs ins) : Py.Keeps (ChainE I M networkOf A)
    (Chain.logpdf I r ts cs ins) := by
  refine (keeps_weightedSamples L r [] _ ins).bind (chainE_trans L) (chainE_right L) fun _ =>
    (keeps_marginal L r cs ins).bind (chainE_trans L) (chainE_right L) fun _ => ?_
  split
  · exact Py.Keeps.throw _
  · exact Py.Keeps.pure _

omit L in
/-- The last lines of `Chain.simulate1`. -/
def Chain.pick (ts : List Var) (l : List (Dict Var Val × Fl)) (index : Nat) :
    Py (Chain S × Rng) (Dict Var Val) :=
  match l[index]? with
  | none => Py.throw .indexError
  | some (sample, _) => do
    let values ← Py.lift (ts.mapM fun q => Dict.getItem sample q)
    pure (Dict.update [] (ts.zip values))

theorem rel_simulate1 (r ts cs ins) : Py.Rel (ChainE I M networkOf A)
    (Chain.simulate1 I r ts cs ins) (Chain.simulate1 I r ts cs ins) := by
  refine (rel_weightedSamples L r ts cs ins).bind fun l => ?_
  split
  · exact Py.Rel.throw _
  · refine Py.Rel.get fun c c' g h => ?_
    dsimp only
    rw [← h.accuracy]
    have tail : ∀ index : Nat, Py.Rel (ChainE I M networkOf A) (Chain.pick ts l index)
        (Chain.pick ts l index) := by
      intro index
      unfold Chain.pick
      rcases l[index]? with _ | ⟨sample, w⟩
      · exact Py.Rel.throw _
      · exact (Py.Rel.lift _).bind fun _ => Py.Rel.pure _
    split
    · exact ((Py.Rel.pure 0).bind tail) c c' g h
    · exact ((Py.Rel.onSnd _).bind tail) c c' g h

theorem keeps_simulate1 (r ts cs ins) : Py.Keeps (ChainE I M networkOf A)
    (Chain.simulate1 I r ts cs ins) := by
  refine (keeps_weightedSamples L r ts cs ins).bind (chainE_trans L) (chainE_right L) fun l => ?_
  split
  · exact Py.Keeps.throw _
  · refine Py.Keeps.get fun c g h => ?_
    dsimp only
    have tail : ∀ index : Nat, Py.Keeps (ChainE I M networkOf A) (Chain.pick ts l index) := by
      intro index
      unfold Chain.pick
      rcases l[index]? with _ | ⟨sample, w⟩
      · exact Py.Keeps.throw _
      · exact (Py.Keeps.lift _).bind (chainE_trans L) (chainE_right L) fun _ => Py.Keeps.pure _
    split
    · exact ((Py.Keeps.pure 0).bind (chainE_trans L) (chainE_right L) tail) c g h
    · exact ((Py.Keeps.onSnd _).bind (chainE_trans L) (chainE_right L) tail) c g h

theorem rel_chainSimulate (r ts cs ins N) : Py.Rel (ChainE I M networkOf A)
    (Chain.simulate I r ts cs ins N) (Chain.simulate I r ts cs ins N) := by
  cases N with
  | none => exact (rel_simulate1 L r ts cs ins).bind fun _ => Py.Rel.pure _
  | some k => exact (Py.Rel.mapL (fun _ => rel_simulate1 L r ts cs ins) _).bind fun _ => Py.Rel.pure _

theorem keeps_chainSimulate (r ts cs ins N) : Py.Keeps (ChainE I M networkOf A)
    (Chain.simulate I r ts cs ins N) := by
  cases N with
  | none =>
    exact (keeps_simulate1 L r ts cs ins).bind (chainE_trans L) (chainE_right L)
      fun _ => Py.Keeps.pure _
  | some k =>
    exact (Py.Keeps.mapL (chainE_trans L) (chainE_right L)
      (fun _ => keeps_simulate1 L r ts cs ins) _).bind (chainE_trans L) (chainE_right L)
      fun _ => Py.Keeps.pure _

theorem rel_chainObserve (r o i) : Py.Rel (ChainE I M networkOf A)
    (Chain.observe I r o i) (Chain.observe I r o i) :=
  (rel_eachMember L (rel_observeOne L r o i) fun s g h => observeOne_attrs L r o i s g h).bind
    fun _ => Py.Rel.pure _

theorem rel_chainUnobserve (r) : Py.Rel (ChainE I M networkOf A)
    (Chain.unobserve I r) (Chain.unobserve I r) := by
  refine (rel_eachMember L (rel_unobserveOne L r) fun s g h => by
    rw [unobserveOne_snd]; exact L.unobserve_attrs r s g h).bind fun _ => ?_
  split
  · exact Py.Rel.throw _
  · exact Py.Rel.pure _

theorem chainE_strip {c c' : Chain S} (h : ChainE I M networkOf A c c') :
    ChainE I M networkOf A c { c with cgpms := c.cgpms.map M.strip } :=
  ⟨⟨forall_strip L (forall_inv L h.members.1), h.members.2⟩, rfl, h.pos, rfl, h.sound⟩

omit L in
theorem orOne_some {a : Nat} (h : a ≠ 0) : Forest.orOne (some a) = a := by
  cases a with
  | zero => exact absurd rfl h
  | succ a => rfl

theorem chain_clone {c c' : Chain S} (h : ChainE I M networkOf A c c') :
    Chain.fromMetadata I networkOf (Chain.toMetadata I c) =
      .ok { c with cgpms := c.cgpms.map M.strip } := by
  have hm : ∀ l : List S, (∀ s ∈ l, M.Inv s) →
      (l.map I.toMetadata).mapM I.fromMetadata = .ok (l.map M.strip) := by
    intro l hl
    induction l with
    | nil => rfl
    | cons a l ih =>
      have e : I.fromMetadata (I.toMetadata a) = .ok (M.strip a) := L.clone a (hl a (by simp))
      rw [List.map_cons, List.mapM_cons, e, ih fun s hs => hl s (by simp [hs])]
      rfl
  have hn : networkOf ((c.cgpms.map M.strip).map (ports I)) = .ok c.net := by
    rw [← ports_forall L (forall_strip L (forall_inv L h.members.1)), h.members.2, h.sound]
  simp only [Chain.toMetadata, Chain.fromMetadata, hm _ (forall_inv L h.members.1), bind,
    Except.bind, Chain.construct, hn, pure, Except.pure, Chain.init, orOne_some h.pos]

theorem chain_ask_rel (a : Ask) : Py.Rel (ChainE I M networkOf A) (ask (chainI I networkOf) a)
    (ask (chainI I networkOf) a) := by
  intro s s' g h
  have aux : ∀ {α : Type} (f : α → Answer) (x y : Except Err α × (Chain S × Rng)),
      Py.OutRel (ChainE I M networkOf A) x y →
      Py.OutRel (ChainE I M networkOf A) (x.1.map f, x.2) (y.1.map f, y.2) := by
    rintro α f x y ⟨h1, h2, h3⟩
    exact ⟨by simp only [h1], h2, h3⟩
  have hp := ports_forall L h.members.1
  cases a with
  | observe r o i => exact aux _ _ _ (rel_chainObserve L r o i s s' g h)
  | unobserve r => exact aux _ _ _ (rel_chainUnobserve L r s s' g h)
  | logpdf r t c i => exact aux _ _ _ (rel_chainLogpdf L r t c i s s' g h)
  | simulate r t c i N => exact aux _ _ _ (rel_chainSimulate L r t c i N s s' g h)
  | logpdfScore =>
    have : s.cgpms.mapM I.logpdfScore = s'.cgpms.mapM I.logpdfScore :=
      mapM_congr' _ _ (h.members.1.imp fun _ _ h => L.score_E _ _ h)
    exact ⟨by simp only [ask, chainI, Chain.logpdfScore, this], h, rfl⟩
  | outputs =>
    have := (attrs_flatMap (attrs_forall L h.members.1)).1
    exact ⟨by simp only [ask, chainI, Chain.outputs, this], h, rfl⟩
  | inputs =>
    have := (attrs_flatMap (attrs_forall L h.members.1)).2
    exact ⟨by simp only [ask, chainI, Chain.inputs, this], h, rfl⟩
  | rebuild =>
    have hs := chainE_symm L _ _ h
    have h1 := chain_clone L h
    have h2 := chain_clone L hs
    simp only [ask, chainI, h1, h2]
    exact ⟨rfl, chainE_trans L _ _ _ (chainE_symm L _ _ (chainE_strip L h))
      (chainE_trans L _ _ _ h (chainE_strip L hs)), rfl⟩

theorem chain_answers_E (as : List Ask) {s s' : Chain S} (h : ChainE I M networkOf A s s') (g : Rng) :
    answers (chainI I networkOf) as (s, g) = answers (chainI I networkOf) as (s', g) := by
  induction as generalizing s s' g with
  | nil => rfl
  | cons a as ih =>
    obtain ⟨h1, h2, h3⟩ := chain_ask_rel L a s s' g h
    simp only [answers, h1]
    congr 1
    have := ih h2 (ask (chainI I networkOf) a (s, g)).2.2
    rw [show (ask (chainI I networkOf) a (s', g)).2 = ((ask (chainI I networkOf) a (s', g)).2.1,
      (ask (chainI I networkOf) a (s, g)).2.2) by rw [h3]]
    exact this

theorem chain_query_E {a : Ask} (ha : a.IsQuery) {s : Chain S} (h : ChainE I M networkOf A s s)
    (g : Rng) : ChainE I M networkOf A s (ask (chainI I networkOf) a (s, g)).2.1 := by
  cases a with
  | logpdf r t c i => exact keeps_chainLogpdf L r t c i s g h
  | simulate r t c i N => exact keeps_chainSimulate L r t c i N s g h
  | logpdfScore => exact h
  | outputs => exact h
  | inputs => exact h
  | _ => exact ha.elim

omit L in
theorem chainBuilt_E {n : Nat} {c : Chain (Cgpm n)} (h : ChainBuilt networkOf c) :
    ∃ A, ChainE (cgpmI n) (cgpmSem n) networkOf A c c := by
  induction h with
  | @construct cs accuracy c hc h =>
    refine ⟨cs.map (ports (cgpmI n)), ?_⟩
    rcases hn : networkOf (cs.map (ports (cgpmI n))) with e | net
    · simp [Chain.construct, hn, bind, Except.bind] at h
    · simp only [Chain.construct, hn, bind, Except.bind, pure, Except.pure, Except.ok.injEq] at h
      subst h
      refine ⟨⟨forall_refl (cgpmLaws n) fun s hs => built_inv (hc s hs), rfl⟩, rfl, ?_, rfl, hn⟩
      rcases accuracy with _ | _ | k <;> simp [Chain.init, Forest.orOne]
  | ask h a g ih =>
    obtain ⟨A, hA⟩ := ih
    exact ⟨A, (chain_ask_rel (cgpmLaws n) a _ _ g hA).2.1⟩

end Cgpm2
