import Verif.Lemmas.Life
import Verif.Lemmas.RandomPartition
import Verif.Lemmas.CppTotal
import Verif.Props.CppCrosscat

/-!
# Making an ensemble (helpers)
-/

namespace Cgpm2.Life
open Spec Views Ensemble

/-! ## Primitives -/

theorem primitive_total {o : Var} {d : Dist} (hd : ValidType d) : ∃ p, makeRandomPrimitive o d = .ok p := by
  obtain ⟨n, k⟩ := d
  rcases hd with h | h | h | ⟨h, k', h', -⟩ <;> dsimp only at h <;> subst h
  · exact ⟨_, rfl⟩
  · refine ⟨.normal ⟨[o], [], [], [], 0, 0, 0, 0, 1, 1, 1⟩, ?_⟩
    change (Normal.init [o] [] [] []).map Prim.normal = _
    simp [Normal.init, Dict.get?, Except.map]
  · refine ⟨.poisson ⟨[o], [], [], [], 0, 0, 0, 1, 1⟩, ?_⟩
    change (Poisson.init [o] [] [] []).map Prim.poisson = _
    simp [Poisson.init, Dict.get?, Except.map]
  · dsimp only at h'
    subst h'
    exact ⟨_, rfl⟩

theorem primitive_ok {o : Var} {d : Dist} {p : Prim} (hd : ValidType d) (h : makeRandomPrimitive o d = .ok p) :
    LegallyReachable p ∧ p.outputs = [o] ∧ p.inputs = [] ∧ p.data = [] ∧ OfType d p ∧ p.kind ≠ .crp := by
  obtain ⟨n, k⟩ := d
  rcases hd with h' | h' | h' | ⟨h', k', hk, hk1⟩ <;> dsimp only at h' <;> subst h'
  · have h : Except.ok (Prim.bernoulli (Bernoulli.init [o] [] [] [])) = Except.ok p := h
    cases h
    exact ⟨⟨_, [], .bernoulli .., by simp [LegalHypers, Bernoulli.init, Dict.get?], rfl⟩, rfl, rfl, rfl, rfl,
      nofun⟩
  · have h : (Normal.init [o] [] [] []).map Prim.normal = Except.ok p := h
    rcases hn : Normal.init [o] [] [] [] with e | s
    · rw [hn] at h; cases h
    rw [hn] at h
    cases h
    have hc := Created.normal hn
    simp [Normal.init, Dict.get?] at hn
    subst hn
    exact ⟨⟨_, [], hc, by simp [LegalHypers], rfl⟩, rfl, rfl, rfl, rfl, nofun⟩
  · have h : (Poisson.init [o] [] [] []).map Prim.poisson = Except.ok p := h
    rcases hn : Poisson.init [o] [] [] [] with e | s
    · rw [hn] at h; cases h
    rw [hn] at h
    cases h
    have hc := Created.poisson hn
    simp [Poisson.init, Dict.get?] at hn
    subst hn
    exact ⟨⟨_, [], hc, by simp [LegalHypers], rfl⟩, rfl, rfl, rfl, rfl, nofun⟩
  · dsimp only at hk
    subst hk
    have h : Except.ok (Prim.categorical (Categorical.init [o] [] [] [] k')) = Except.ok p := h
    cases h
    exact ⟨⟨_, [], .categorical .., by simp [LegalHypers, Categorical.init, Dict.get?]; exact hk1, rfl⟩, rfl,
      rfl, rfl, ⟨rfl, rfl⟩, nofun⟩

/-- The class and the number of categories tell the type. -/
theorem ofType_of {d : Dist} {p q : Prim} (h : OfType d p) (e : typeOf q = typeOf p) : OfType d q := by
  have e1 : q.kind = p.kind := congrArg Prod.fst e
  have e2 : q.card = p.card := congrArg Prod.snd e
  cases p <;> cases q <;> first | (cases e1; done) | (exact h) | skip
  rename_i c c'
  exact ⟨h.1, h.2.trans (congrArg some e2.symm)⟩

/-! ## Views -/

/-- A view without rows. -/
noncomputable def freshView (z : Var) (ps : List Prim) : View :=
  (.flexMix ⟨.crp (Crp.init [z] [] [] []), FlexArray.init (.product ⟨ps⟩ : Node Prim) z, []⟩ : Node (Node Prim))

/-- The primitive is the one of that column. -/
def MadeOf (outputs : List Var) (types : List Dist) (i : Nat) (p : Prim) : Prop :=
  ∃ o d, outputs[i]? = some o ∧ types[i]? = some d ∧ makeRandomPrimitive o d = .ok p

theorem item_ok {α : Type} {l : List α} {i : Nat} {a : α} : Ensemble.item l i = .ok a ↔ l[i]? = some a := by
  unfold Ensemble.item
  rcases l[i]? with _ | b
  · exact ⟨nofun, nofun⟩
  · exact ⟨fun h => by cases h; rfl, fun h => by cases h; rfl⟩

theorem forall₂_zip {A B C D : Type} {P : A → B → Prop} {Q : A → C → Prop} {R : B × C → D → Prop} {l : List A}
    {bs : List B} {cs : List C} {ds : List D} (h1 : List.Forall₂ P l bs) (h2 : List.Forall₂ Q l cs)
    (h3 : List.Forall₂ R (bs.zip cs) ds) :
    List.Forall₂ (fun a d => ∃ b c, P a b ∧ Q a c ∧ R (b, c) d) l ds := by
  induction h1 generalizing cs ds with
  | nil =>
    cases h2; cases h3; exact .nil
  | cons p _ ih =>
    cases h2 with
    | cons q h2 =>
      cases h3 with
      | cons r h3 => exact .cons ⟨_, _, p, q, r⟩ (ih h2 h3)

variable {outputs : List Var} {types : List Dist}

theorem makeBlock_ok {block : List Nat} {v : View} {g g' : Rng}
    (h : makeBlock outputs types block g = (.ok v, g')) :
    ∃ ps, v = freshView (drawnVar g) ps ∧ List.Forall₂ (MadeOf outputs types) block ps := by
  unfold makeBlock at h
  rcases h1 : block.mapM (Ensemble.item outputs) with e | os
  · rw [h1] at h; cases h
  rcases h2 : block.mapM (Ensemble.item types) with e | ds
  · rw [h1, h2] at h; cases h
  rw [h1, h2] at h
  have h : makeRandomView os ds g = (.ok v, g') := h
  unfold makeRandomView at h
  have hr : randint g = (.ok ⌊g.uniform.1 * (2 ^ 32 - 1)⌋.toNat, g.uniform.2) := rfl
  rw [Py.bind_apply, hr] at h
  dsimp only at h
  rcases h3 : (os.zip ds).mapM (fun od => makeRandomPrimitive od.1 od.2) with e | ps
  · rw [h3] at h; cases h
  rw [h3] at h
  rcases h4 : Product.init primI ps with e | base
  · have h : (Py.lift (Product.init primI ps) >>= _) _ = _ := h
    rw [h4] at h; cases h
  have h : (Py.lift (Product.init primI ps) >>= _) _ = _ := h
  rw [h4] at h
  have h5 := (init_ok h4).1
  subst h5
  cases h
  refine ⟨ps, rfl, ?_⟩
  refine List.Forall₂.imp ?_ (forall₂_zip ((Cgpm2.mapM_ok_iff _ _ _).1 h1) ((Cgpm2.mapM_ok_iff _ _ _).1 h2)
    ((Cgpm2.mapM_ok_iff _ _ _).1 h3))
  rintro i p ⟨o, d, h1, h2, h3⟩
  exact ⟨o, d, item_ok.1 h1, item_ok.1 h2, h3⟩

theorem mapL_ok {σ α β : Type} {f : α → Py σ β} {l : List α} {bs : List β} {s s' : σ}
    (h : Py.mapL f l s = (.ok bs, s')) : List.Forall₂ (fun a b => ∃ s s', f a s = (.ok b, s')) l bs := by
  induction l generalizing bs s with
  | nil => cases h; exact .nil
  | cons a l ih =>
    rw [Py.mapL] at h
    obtain ⟨b, s1, h1, h⟩ := run_bind h
    obtain ⟨bs', s2, h2, h⟩ := run_bind h
    cases h
    exact .cons ⟨_, _, h1⟩ (ih h2)

/-- What is known of the partition of the columns. -/
structure Splits (N : Nat) (q : List (List Nat)) : Prop where
  nonempty : ∀ b ∈ q, b ≠ []
  covers : q.flatten.Perm (List.range N)

theorem partition_ok {env : Outside} (hs : SaneOutside env) {N : Nat} {alpha : ℝ} (ha : 0 < alpha)
    {Cd Ci : List (List Var)} {q : List (List Nat)} {g g' : Rng}
    (h : makeRandomPartition env N alpha Cd Ci g = (.ok q, g')) : Splits N q := by
  unfold makeRandomPartition at h
  by_cases hc : Cd = [] ∧ Ci = []
  · rw [if_pos hc] at h
    obtain ⟨q', h1, h2⟩ := generate_spec ha N g
    rw [h2] at h
    cases h
    exact ⟨h1.nonempty, h1.covers⟩
  · rw [if_neg hc] at h
    obtain ⟨l, g1, h1, h⟩ := run_bind h
    cases h
    have hl := hs.crp _ _ _ _ _ _ _ h1
    obtain ⟨k1, k2, -⟩ := Props.C48_blocks _ l (hs.unique l)
    rw [hl] at k1
    exact ⟨fun b hb => (k2 b hb).1, k1⟩

/-- The views are made of the blocks of the partition. -/
structure Made (outputs : List Var) (types : List Dist) (q : List (List Nat)) (x : Crosscat) : Prop where
  valid : Product.validate (cgpmI 2) x.cgpms = .ok ()
  views : List.Forall₂ (fun b v => ∃ z ps, v = freshView z ps ∧ List.Forall₂ (MadeOf outputs types) b ps)
    q x.cgpms

theorem crosscat_ok {env : Outside} (hs : SaneOutside env) {Cd Ci : List (List Var)} {x : Crosscat} {g g' : Rng}
    (h : makeRandomCrosscat env outputs types Cd Ci g = (.ok x, g')) :
    ∃ q, Splits outputs.length q ∧ Made outputs types q x ∧
      ∃ g1, makeRandomPartition env outputs.length (env.gamma (g 0)) Cd Ci g.next.2 = (.ok q, g1) := by
  unfold makeRandomCrosscat at h
  obtain ⟨alpha, g1, h1, h⟩ := run_bind h
  cases h1
  obtain ⟨q, g2, h2, h⟩ := run_bind h
  obtain ⟨vs, g3, h3, h⟩ := run_bind h
  rcases h4 : Product.init (cgpmI 2) vs with e | x'
  · rw [h4] at h; cases h
  rw [h4] at h
  cases h
  obtain ⟨h5, h6⟩ := init_ok h4
  subst h5
  refine ⟨q, partition_ok hs (hs.gamma _) h2, ⟨h6, List.Forall₂.imp ?_ (mapL_ok h3)⟩, g2, h2⟩
  rintro b v ⟨g, g', h⟩
  obtain ⟨ps, h⟩ := makeBlock_ok h
  exact ⟨_, ps, h⟩

/-! ## The CrossCat -/

theorem heads_perm {A : Type} (f : A → List Var) (l : List A) (h : ∀ a ∈ l, f a ≠ []) :
    (l.flatMap f).Perm (l.map (fun a => (f a).headD 0) ++ l.flatMap fun a => (f a).tail) := by
  induction l with
  | nil => exact .refl _
  | cons a l ih =>
    have ih := ih fun b hb => h b (List.mem_cons_of_mem _ hb)
    have ha := h a List.mem_cons_self
    rw [List.flatMap_cons, List.map_cons, List.flatMap_cons]
    rcases hf : f a with _ | ⟨z, cols⟩
    · exact absurd hf ha
    · refine List.Perm.cons _ ?_
      change (cols ++ l.flatMap f).Perm (l.map _ ++ (cols ++ l.flatMap _))
      refine (ih.append_left cols).trans ?_
      rw [← List.append_assoc, ← List.append_assoc]
      exact List.perm_append_comm.append_right _

theorem made_outputs (ht : ∀ d ∈ types, ValidType d) {b : List Nat} {ps : List Prim}
    (h : List.Forall₂ (MadeOf outputs types) b ps) :
    ps.flatMap Prim.outputs = b.map fun i => (outputs[i]?).getD 0 := by
  induction h with
  | nil => rfl
  | cons h _ ih =>
    obtain ⟨o, d, h1, h2, h3⟩ := h
    rw [List.flatMap_cons, List.map_cons, ih, (primitive_ok (ht d (List.mem_of_getElem? h2)) h3).2.1, h1]
    rfl

theorem mem_made {b : List Nat} {ps : List Prim} (h : List.Forall₂ (MadeOf outputs types) b ps) {p : Prim}
    (hp : p ∈ ps) : ∃ i, MadeOf outputs types i p := by
  induction h with
  | nil => cases hp
  | cons h _ ih =>
    rcases List.mem_cons.1 hp with rfl | hp
    · exact ⟨_, h⟩
    · exact ih hp

theorem fresh_view {Z : List Var} {z : Var} {ps : List Prim} (hz : z ∈ Z) (hne : ps ≠ [])
    (hps : ∀ p ∈ ps, LegallyReachable p ∧ p.inputs = [] ∧ p.data = [] ∧ p.kind ≠ .crp)
    (hn : (ps.flatMap Prim.outputs).Nodup) (ho : ∀ v ∈ ps.flatMap Prim.outputs, v ∉ Z) :
    Tidy Z 2 (freshView z ps) ∧ ∀ r, HoldsNothing (cgpmI 2) (freshView z ps) r := by
  have hp0 : ∀ p ∈ ps, Tidy Z 0 (p : Prim) := by
    intro p hp
    obtain ⟨h1, h2, h3, h4⟩ := hps p hp
    exact .prim0 h1 h2 fun v hv => ⟨fun h => absurd h (ho v (List.mem_flatMap.2 ⟨p, hp, hv⟩)), fun h => absurd h h4⟩
  have hi : Product.init primI ps = .ok ⟨ps⟩ := by
    unfold Product.init
    rw [validate_of_nodup (I := primI) (fun c hc => (hps c hc).2.1) hn]
    rfl
  have hb : Tidy Z 1 (.product ⟨ps⟩ : Node Prim) := .product (n := 0) (cs := ps) hp0 hne hi
  have hf : ∀ r, (cgpmTab Z 1).Fresh (.product ⟨ps⟩ : Node Prim) r := by
    intro r v
    refine ProdTab.cell_none_iff.2 fun p hp => ?_
    change (primTab Z).cell p r v = none
    simp [primTab, (hps p hp).2.2.1]
  have hbe : ∀ r, HoldsNothing (cgpmI 1) (.product ⟨ps⟩ : Node Prim) r := fun r =>
    (holdsNothing_iff (cgpmTLaws Z 1) (tidy_reg hb) r).2 (hf r)
  have ht : Tidy Z 2 (freshView z ps) := by
    refine .flexMix (n := 1) (d := .crp (Crp.init [z] [] [] [])) (b := (.product ⟨ps⟩ : Node Prim))
      ⟨_, [], .crp .., by simp [LegalHypers, Crp.init, Dict.get?], rfl⟩ rfl (.inl rfl) ?_ rfl hb hbe ?_ ?_ rfl
    · intro v hv
      have hv : v ∈ [z] := hv
      rw [List.mem_singleton.1 hv]; exact hz
    · refine (cgpmFrame Z 1).zero _ (tidy_reg hb) hf ?_
      refine (sumScore_fin_iff primI.logpdfScore ps).2 fun p hp => ?_
      have hr := tidy_reg (hp0 p hp)
      exact ⟨_, Prim.logpdfScore_eq hr.1.1 hr.1.2⟩
    · intro v hv hv'
      have hv : v ∈ [z] := hv
      have hv' : v ∈ ps.flatMap Prim.outputs := hv'
      rw [List.mem_singleton.1 hv] at hv'
      exact ho z hv' hz
  refine ⟨ht, fun r => (holdsNothing_iff (cgpmTLaws Z 2) (tidy_reg ht) r).2 fun v => ?_⟩
  change (if v = _ then Dict.get? [] r else (Dict.get? [] r).bind _) = none
  simp [Dict.get?]

theorem splits_ne {N : Nat} {q : List (List Nat)} (h : Splits N q) (hN : N ≠ 0) : q ≠ [] := by
  rintro rfl
  have := h.covers.length_eq
  simp at this
  exact hN this.symm

theorem map_range_getD (l : List Var) : (List.range l.length).map (fun i => (l[i]?).getD 0) = l := by
  refine List.ext_getElem (by simp) fun i h1 h2 => ?_
  simp [List.getElem?_eq_getElem h2]

variable {q : List (List Nat)} {x : Crosscat}

theorem views_columns (ht : ∀ d ∈ types, ValidType d) {vs : List View}
    (h : List.Forall₂ (fun b v => ∃ z ps, v = freshView z ps ∧ List.Forall₂ (MadeOf outputs types) b ps) q vs) :
    vs.flatMap viewColumns = q.flatten.map fun i => (outputs[i]?).getD 0 := by
  induction h with
  | nil => rfl
  | cons h _ ih =>
    obtain ⟨z, ps, rfl, h⟩ := h
    rw [List.flatMap_cons, ih, List.flatten_cons, List.map_append, ← made_outputs ht h]
    rfl

theorem made_columns (ht : ∀ d ∈ types, ValidType d) (hs : Splits outputs.length q)
    (hm : Made outputs types q x) : (columns x).Perm outputs := by
  have h2 : columns x = q.flatten.map fun i => (outputs[i]?).getD 0 := views_columns ht hm.views
  rw [h2]
  refine (hs.covers.map _).trans ?_
  rw [map_range_getD]

theorem views_mem {vs : List View}
    (h : List.Forall₂ (fun b v => ∃ z ps, v = freshView z ps ∧ List.Forall₂ (MadeOf outputs types) b ps) q vs)
    {v : View} (hv : v ∈ vs) :
    ∃ b ∈ q, ∃ z ps, v = freshView z ps ∧ List.Forall₂ (MadeOf outputs types) b ps := by
  induction h with
  | nil => cases hv
  | cons h _ ih =>
    rcases List.mem_cons.1 hv with rfl | hv
    · exact ⟨_, List.mem_cons_self, h⟩
    · obtain ⟨b, hb, h⟩ := ih hv
      exact ⟨b, List.mem_cons_of_mem _ hb, h⟩

theorem made_view (hm : Made outputs types q x) {v : View} (hv : v ∈ x.cgpms) :
    ∃ b ∈ q, ∃ z ps, v = freshView z ps ∧ List.Forall₂ (MadeOf outputs types) b ps := views_mem hm.views hv

/-- The cluster variables. -/
noncomputable def clusterVars (x : Crosscat) : List Var := x.cgpms.map fun v => ((cgpmI 2).outputs v).headD 0

theorem made_nodup (hm : Made outputs types q x) : (clusterVars x ++ columns x).Nodup := by
  have h1 := Product.validate_nodup hm.valid
  refine ((heads_perm (cgpmI 2).outputs x.cgpms fun v hv => ?_).nodup_iff).1 h1
  obtain ⟨b, -, z, ps, rfl, -⟩ := made_view hm hv
  exact List.cons_ne_nil _ _

theorem made_tidy (ht : ∀ d ∈ types, ValidType d) (hne : outputs ≠ []) (hs : Splits outputs.length q)
    (hm : Made outputs types q x) : IsCrosscat x ∧ Tidy (clusterVars x) 3 (whole x) ∧
      (∀ v ∈ columns x, v ∉ clusterVars x) ∧ ∀ r, HoldsNothing (cgpmI 3) (whole x) r := by
  have hn := made_nodup hm
  have hplain : ∀ v ∈ columns x, v ∉ clusterVars x := fun v hv hz =>
    (List.nodup_append.1 hn).2.2 v hz v hv rfl
  have hall := Product.validate_nodup hm.valid
  have hview : ∀ v ∈ x.cgpms, Tidy (clusterVars x) 2 v ∧ ∀ r, HoldsNothing (cgpmI 2) v r := by
    intro v hv
    obtain ⟨b, hb, z, ps, rfl, hps⟩ := made_view hm hv
    have hcol : ∀ o ∈ ps.flatMap Prim.outputs, o ∈ columns x := fun o ho => mem_columns.2 ⟨_, hv, ho⟩
    refine fresh_view (List.mem_map.2 ⟨_, hv, rfl⟩) ?_ (fun p hp => ?_) ?_ fun o ho => hplain o (hcol o ho)
    · rintro rfl
      cases hps
      exact hs.nonempty _ hb rfl
    · obtain ⟨i, o, d, h1, h2, h3⟩ := mem_made hps hp
      obtain ⟨k1, -, k3, k4, -, k6⟩ := primitive_ok (ht d (List.mem_of_getElem? h2)) h3
      exact ⟨k1, k3, k4, k6⟩
    · have : ((cgpmI 2).outputs (freshView z ps)).Nodup := (List.nodup_flatMap.1 hall).1 _ hv
      exact (List.nodup_cons.1 this).2
  have hx : IsCrosscat x := by
    intro v hv
    obtain ⟨b, hb, z, ps, rfl, hps⟩ := made_view hm hv
    exact ⟨_, ⟨ps⟩, rfl, rfl, rfl⟩
  have hxne : x.cgpms ≠ [] := by
    intro e
    have hq := hm.views.length_eq
    rw [e] at hq
    exact splits_ne hs (fun h => hne (List.length_eq_zero_iff.1 h)) (List.length_eq_zero_iff.1 hq)
  have hi : Product.init (cgpmI 2) x.cgpms = .ok x := by
    unfold Product.init; rw [hm.valid]; rfl
  have hT : Tidy (clusterVars x) 3 (whole x) := .product (n := 2) (cs := x.cgpms) (fun v hv => (hview v hv).1) hxne hi
  refine ⟨hx, hT, hplain, fun r => (holdsNothing_iff (cgpmTLaws _ 3) (tidy_reg hT) r).2 fun v => ?_⟩
  refine ProdTab.cell_none_iff.2 fun c hc => ?_
  exact (holdsNothing_iff (cgpmTLaws _ 2) (tidy_reg (hview c hc).1) r).1 ((hview c hc).2 r) v

theorem made_declared (ht : ∀ d ∈ types, ValidType d) (hne : outputs ≠ []) (hl : outputs.length = types.length)
    (hs : Splits outputs.length q) (hm : Made outputs types q x) : Declared outputs types x := by
  obtain ⟨hx, hT, hplain, -⟩ := made_tidy ht hne hs hm
  have hcc := cc_of_tidy hT hx hplain
  have hperm := made_columns ht hs hm
  have hnd : outputs.Nodup := hperm.nodup_iff.1 (List.nodup_append.1 (made_nodup hm)).2.1
  rintro ⟨o, d⟩ hod
  obtain ⟨i, hi, he⟩ := List.getElem_of_mem hod
  rw [List.getElem_zip] at he
  cases he
  have hi1 : i < outputs.length := by rw [List.length_zip] at hi; omega
  have hoc : outputs[i] ∈ columns x := hperm.mem_iff.2 (List.getElem_mem _)
  refine ⟨?_, fun p hp => ?_⟩
  · obtain ⟨b, h1, h2, -⟩ := column_prims hcc hoc
    exact ⟨b, h1, h2⟩
  · dsimp only at hp ⊢
    obtain ⟨h1, h2⟩ := hp
    obtain ⟨v, hv, h1⟩ := List.mem_flatMap.1 h1
    obtain ⟨b, hb, z, ps, rfl, hps⟩ := made_view hm hv
    rcases List.mem_cons.1 h1 with rfl | h1
    · have h2 : [z] = [outputs[i]] := h2
      cases h2
      exact absurd (List.mem_map.2 ⟨_, hv, rfl⟩) (hplain _ hoc)
    · have h1 : p ∈ ([] : List Prim) ++ ps.flatMap (primsIn 0) := h1
      rw [List.nil_append] at h1
      obtain ⟨p', hp', h1⟩ := List.mem_flatMap.1 h1
      have h1 : p = p' := List.mem_singleton.1 h1
      subst h1
      obtain ⟨j, o, d, k1, k2, k3⟩ := mem_made hps hp'
      obtain ⟨-, e1, -, -, e2, -⟩ := primitive_ok (ht d (List.mem_of_getElem? k2)) k3
      rw [e1] at h2
      have h2 : o = outputs[i] := List.head_eq_of_cons_eq h2
      obtain ⟨hj, k1⟩ := List.getElem?_eq_some_iff.1 k1
      have hij : j = i := (List.Nodup.getElem_inj_iff hnd).1 (k1.trans h2)
      subst hij
      obtain ⟨_, k2⟩ := List.getElem?_eq_some_iff.1 k2
      rw [k2]; exact e2

end Cgpm2.Life
