import Verif.Spec.Rows
import Verif.Lemmas.Accept
import Verif.Lemmas.FreeRows
import Verif.Lemmas.SamplesTotal

/-!
# Moving one row of a mixture (helpers)
-/

namespace Cgpm2
open Spec

variable {S : Type} {Z : List Var} {n : Nat}

theorem currentDivide_bind {α : Type} (f : Prim → Py (Node S × Rng) α) (c : Node S) (g : Rng) :
    (currentDivide >>= f) (c, g) = match c.rowDivide with
      | some d => f d (c, g)
      | none => (.error .assertionError, (c, g)) := by
  cases c <;> rfl

theorem Node.rowDivide_E {c c' : Cgpm (n + 1)} (h : (cgpmSem (n + 1)).E c c') :
    (Node.rowDivide c = none ∧ Node.rowDivide c' = none) ∨
    ∃ d d', Node.rowDivide c = some d ∧ Node.rowDivide c' = some d' ∧ primSem.E d d' := by
  cases c <;> cases c' <;> first
    | exact h.elim
    | exact .inl ⟨rfl, rfl⟩
    | exact .inr ⟨_, _, rfl, rfl, h.1.1⟩

theorem Prim.support_E {p q : Prim} (h : primSem.E p q) : p.support = q.support := by
  have := congrArg Prim.support h.2.2
  simpa only [Prim.clear_support] using this

theorem divides_support {d : Prim} (h : Divides d) : ∃ supp, d.support = .ok supp := by
  cases d with
  | crp c => exact ⟨_, rfl⟩
  | categorical c => exact ⟨_, rfl⟩
  | bernoulli c => exact ⟨_, rfl⟩
  | normal c => simp [Divides, Prim.kind] at h
  | normalUC c => simp [Divides, Prim.kind] at h
  | poisson c => simp [Divides, Prim.kind] at h

/-- Facts about a divider inside a regular mixture. -/
theorem reg_rowDivide {c : Cgpm (n + 1)} (h : (cgpmTab Z (n + 1)).Reg c) {d : Prim}
    (hd : Node.rowDivide c = some d) : d.Good ∧ Divides d ∧
      (∃ z supp, d.outputs = [z] ∧ d.support = .ok supp ∧ z ∈ Z ∧
        z ∈ (cgpmI (n + 1)).outputs c ∧ IsMixture c z supp) ∧
      ∀ r v, d.outputs = [v] → Dict.get? d.data r = (cgpmTab Z (n + 1)).cell c r v := by
  cases c with
  | finMix m =>
    cases hd
    have hm : MixReg _ _ _ _ _ _ _ m := h
    obtain ⟨supp, hs⟩ := divides_support hm.divides
    refine ⟨hm.inv.1, hm.divides, ⟨m.indexer, supp, hm.out, hs, hm.x_mem,
      List.mem_append_left _ (by rw [hm.out]; simp), hm.out, hs⟩, fun r v hv => ?_⟩
    have : v = m.indexer := by simp [RowMix.indexer, hv]
    subst this
    rw [hm.data r]
    exact (if_pos rfl).symm
  | flexMix m =>
    cases hd
    have hm : MixReg _ _ _ _ _ _ _ m := h
    obtain ⟨supp, hs⟩ := divides_support hm.divides
    refine ⟨hm.inv.1, hm.divides, ⟨m.indexer, supp, hm.out, hs, hm.x_mem,
      List.mem_append_left _ (by rw [hm.out]; simp), hm.out, hs⟩, fun r v hv => ?_⟩
    have : v = m.indexer := by simp [RowMix.indexer, hv]
    subst this
    rw [hm.data r]
    exact (if_pos rfl).symm
  | prim p => cases hd
  | product p => cases hd
  | finArray p => cases hd
  | flexArray p => cases hd

theorem rowDivide_of_mixture {c : Cgpm (n + 1)} {z : Var} {supp : List Int} (h : IsMixture c z supp) :
    ∃ d, Node.rowDivide c = some d ∧ d.outputs = [z] ∧ d.support = .ok supp := by
  cases c with
  | finMix m => exact ⟨_, rfl, h⟩
  | flexMix m => exact ⟨_, rfl, h⟩
  | prim p => exact h.elim
  | product p => exact h.elim
  | finArray p => exact h.elim
  | flexArray p => exact h.elim

/-- What `unobserve` does to the divider. -/
theorem rowDivide_unobserve {c c1 : Cgpm (n + 1)} {d : Prim} (h : (cgpmTab Z (n + 1)).Reg c)
    (hd : Node.rowDivide c = some d) {r : RowId} {g g1 : Rng} {x}
    (hu : (cgpmI (n + 1)).unobserve r (c, g) = (.ok x, (c1, g1))) :
    ∃ v, Node.rowDivide c1 = some (d.remove r v) ∧ (Node.IsFlexible c → Node.IsFlexible c1) := by
  have K := cgpmTLaws Z n
  have L := cgpmLaws n
  have hp : (cgpmTab Z (n + 1)).present c r := by
    by_contra hn
    obtain ⟨e, he⟩ := (cgpmTLaws Z (n + 1)).unobserve_absent c r g h hn
    rw [hu] at he
    cases he
  cases c with
  | finMix m =>
    cases hd
    have hm : MixReg _ _ _ _ _ _ _ m := h
    obtain ⟨v, hv⟩ := Option.ne_none_iff_exists'.1 hp
    obtain ⟨_, _, _, -, -, h3, -⟩ := RowMix.unobserve_ok (finArrLaws _ _) K hm hv g
    have := (inside_eq (f := Node.finMix) h3).symm.trans hu
    cases this
    exact ⟨v, rfl, fun h => h⟩
  | flexMix m =>
    cases hd
    have hm : MixReg _ _ _ _ _ _ _ m := h
    obtain ⟨v, hv⟩ := Option.ne_none_iff_exists'.1 hp
    obtain ⟨_, _, _, -, -, h3, -⟩ := RowMix.unobserve_ok (flexArrLaws L) K hm hv g
    have := (inside_eq (f := Node.flexMix) h3).symm.trans hu
    cases this
    exact ⟨v, rfl, fun h => h⟩
  | prim p => cases hd
  | product p => cases hd
  | finArray p => cases hd
  | flexArray p => cases hd

/-- The outcome of taking a row out and putting it back into a given cluster. -/
theorem move_row {c c1 c2 c' : Cgpm (n + 1)} (h : (cgpmTab Z (n + 1)).Reg c) {r : RowId} {g g2 g3 : Rng}
    {ob : Dict Var Val} (hu : (cgpmI (n + 1)).unobserve r (c, g) = (.ok (ob, []), (c1, g)))
    (hE : (cgpmSem (n + 1)).E c1 c2) {z : Var} {supp : List Int} (hm : IsMixture c1 z supp) {k : Int}
    (ho : (cgpmI (n + 1)).observe r (Dict.set ob z (.num (k : ℚ))) [] (c2, g2) = (.ok (), (c', g3))) :
    (cgpmTab Z (n + 1)).Reg c' ∧ (cgpmTab Z (n + 1)).cell c' r z = some (.num (k : ℚ)) ∧
      WholeClusters Z (Dict.set ob z (.num (k : ℚ))) ∧ Moved Z z r c c' := by
  have K := cgpmTLaws Z (n + 1)
  have L := cgpmLaws (n + 1)
  have hp : (cgpmTab Z (n + 1)).present c r := by
    by_contra hn
    obtain ⟨e, he⟩ := K.unobserve_absent c r g h hn
    rw [hu] at he
    cases he
  obtain ⟨ob', c1', e1, hr1, hn1, hob, hfr, hoth, hpo⟩ := K.unobserve c r g h hp
  rw [hu] at e1
  cases e1
  have hr2 := K.reg_E _ _ hE hr1
  have hcE := K.cell_E _ _ hE hr1
  have hw : WholeClusters Z (Dict.set ob z (.num (k : ℚ))) := by
    intro v hv x hx
    rw [Dict.get?_set] at hx
    split at hx
    · cases hx; exact ⟨k, rfl⟩
    · rw [hob] at hx
      exact K.whole c r v x h hv hx
  obtain ⟨d, hd, hdo, -⟩ := rowDivide_of_mixture hm
  obtain ⟨-, -, ⟨z', _, hz1, -, hzZ, hz2, -⟩, -⟩ := reg_rowDivide hr1 hd
  obtain rfl : z' = z := by rw [hdo] at hz1; simpa using hz1.symm
  have hout : (cgpmI (n + 1)).outputs c2 = (cgpmI (n + 1)).outputs c1 := (L.outputs_E hE).symm
  have hout1 : (cgpmI (n + 1)).outputs c1 = (cgpmI (n + 1)).outputs c := by
    have := L.unobserve_attrs r c g (K.inv _ h)
    rw [hu] at this
    exact congrArg Prod.fst this
  have hf2 : (cgpmTab Z (n + 1)).Fresh c2 r := fun v => by rw [← hcE]; exact hfr v
  obtain ⟨h1, h2, h3, h4, h5, h6, h7⟩ := K.observe c2 r _ [] g2 c' g3 hr2 hw ho
  refine ⟨h1, h6 z' (hout ▸ hz2) _ (hf2 _) (by rw [Dict.get?_set, if_pos rfl]), hw, ?_, ?_, ?_, ?_⟩
  · intro g r' v hne
    rw [heldCell_eq K h1, heldCell_eq K h, h4 r' v hne, ← hcE, hoth r' v hne]
  · intro g v x hv hx
    rw [heldCell_eq K h] at hx
    rw [heldCell_eq K h1]
    refine h6 v ?_ x (hf2 _) (by rw [Dict.get?_set, if_neg (Ne.symm hv), hob, hx])
    by_contra hn
    rw [K.cell_out c r v h (by rw [← hout1, ← hout]; exact hn)] at hx
    cases hx
  · intro g v hv hx
    rw [heldCell_eq K h] at hx
    rw [heldCell_eq K h1]
    refine h7 v hv (hf2 _) ?_
    rw [Dict.get?_set, hob, hx]
    split
    · next hvz => exact absurd (hvz ▸ hzZ) hv
    · rfl
  · intro as ga gb
    have := K.inverse c2 r _ [] g2 c' g3 ga hr2 hf2 hw ho
    have hc : without c r ga = c1 := by
      have := (L.unobserve_noDraw r c g ga).2.1
      rw [hu] at this
      exact this.symm
    rw [hc]
    exact (answers_E L as (L.trans _ _ _ hE this) gb).symm

theorem Py.mapL_length {T α β : Type} {f : α → Py T β} : ∀ {l : List α} {s s' : T} {ys : List β},
    Py.mapL f l s = (.ok ys, s') → ys.length = l.length := by
  intro l
  induction l with
  | nil => intro s s' ys h; cases h; rfl
  | cons a l ih =>
    intro s s' ys h
    unfold Py.mapL at h
    rw [Py.bind_apply] at h
    rcases h1 : f a s with ⟨_ | y, s1⟩ <;> rw [h1] at h
    · cases h
    dsimp only at h
    rw [Py.bind_apply] at h
    rcases h2 : Py.mapL f l s1 with ⟨_ | ys', s2⟩ <;> rw [h2] at h
    · cases h
    cases h
    simp [ih h2]

theorem Py.mapL_invariant {T α β : Type} {P : T → Prop} {f : α → Py T β}
    (hf : ∀ a s, P s → P (f a s).2) : ∀ (l : List α) (s : T), P s → P (Py.mapL f l s).2 := by
  intro l
  induction l with
  | nil => intro s h; exact h
  | cons a l ih =>
    intro s h
    unfold Py.mapL
    rw [Py.bind_apply]
    have h1 := hf a s h
    rcases e1 : f a s with ⟨_ | y, s1⟩ <;> rw [e1] at h1
    · exact h1
    dsimp only at h1 ⊢
    rw [Py.bind_apply]
    have h2 := ih s1 h1
    rcases e2 : Py.mapL f l s1 with ⟨_ | ys', s2⟩ <;> rw [e2] at h2 <;> exact h2

theorem mapL_logpdf {I : Iface S} {M : Sem S} (L : Laws I M) {α : Type} {r : RowId}
    {t : α → Dict Var Val} {x : α → Fl} : ∀ (l : List α) (s : S) (g : Rng), M.Inv s →
    (∀ a ∈ l, (I.logpdf r (t a) [] [] (s, g)).1 = .ok (x a)) →
    ∃ s', Py.mapL (fun a => I.logpdf r (t a) [] []) l (s, g) = (.ok (l.map x), (s', g)) ∧ M.E s s' := by
  intro l
  induction l with
  | nil => intro s g hs _; exact ⟨s, rfl, L.refl s hs⟩
  | cons a l ih =>
    intro s g hs h
    have h1 := h a (by simp)
    have h2 := L.E_logpdf hs r (t a) [] [] g
    have h3 := (L.logpdf_noDraw r (t a) [] [] s g g).2.2
    rcases h4 : I.logpdf r (t a) [] [] (s, g) with ⟨y, s1, g1⟩
    rw [h4] at h1 h2 h3
    dsimp only at h1 h2 h3
    subst h1 h3
    obtain ⟨s2, h5, h6⟩ := ih s1 g1 (L.inv' h2) fun b hb => by
      rw [← h b (by simp [hb])]
      exact (L.logpdf r (t b) [] [] s s1 g1 h2).1.symm
    refine ⟨s2, ?_, L.trans _ _ _ h2 h6⟩
    unfold Py.mapL
    rw [Py.bind_apply, h4]
    dsimp only
    rw [Py.bind_apply, h5]
    rfl

/-- The last part of a Gibbs step on a row: draw the cluster and observe. -/
noncomputable def finishStep {T : Type} (J : Iface T) (r : RowId) (ob inp : Dict Var Val) (z : Var)
    (supp : List Int) (x : Except Err (List Fl) × (T × Rng)) : Except Err Unit × (T × Rng) :=
  match x with
  | (.error e, st) => (.error e, st)
  | (.ok logps, (c2, g2)) => match logPflipIdx logps g2 with
    | (.error e, g3) => (.error e, (c2, g3))
    | (.ok i, g3) => J.observe r (Dict.set ob z (.num (supp.getD i 0 : Int))) inp (c2, g3)

/-- The steps of a Gibbs step on a held row. -/
theorem transitionRows_steps {I : Iface S} {c c1 : Node S} {d d1 : Prim} {r : RowId} {g g1 : Rng}
    {ob inp : Dict Var Val} {z : Var} {supp : List Int} (hd : c.rowDivide = some d)
    (hu : (nodeI I).unobserve r (c, g) = (.ok (ob, inp), (c1, g1))) (hd1 : c1.rowDivide = some d1)
    (hz : d1.outputs = [z]) (hs : d1.support = .ok supp) :
    transitionRows I r (c, g) = finishStep (nodeI I) r ob inp z supp (Py.mapL (fun k : Int =>
        (nodeI I).logpdf none (Dict.set ob z (.num k)) [] inp) supp (c1, g1)) := by
  unfold transitionRows finishStep
  rw [currentDivide_bind, hd]
  dsimp only
  rw [Py.bind_apply, hu]
  dsimp only
  rw [currentDivide_bind, hd1]
  dsimp only
  rw [Py.lift_bind, hs]
  dsimp only
  rw [hz, List.headD_cons, Py.bind_apply]
  rcases Py.mapL (fun k : Int =>
        (nodeI I).logpdf none (Dict.set ob z (.num k)) [] inp) supp (c1, g1) with ⟨_ | logps, c2, g2⟩
  · rfl
  dsimp only
  rw [Py.bind_apply]
  unfold Py.onSnd
  dsimp only
  rcases logPflipIdx logps g2 with ⟨_ | i, g3⟩ <;> rfl

theorem transitionRows_error {I : Iface S} {c : Node S} {r : RowId} {g : Rng}
    (h : c.rowDivide = none ∨ ∃ e st, (nodeI I).unobserve r (c, g) = (.error e, st)) :
    ∃ e st, transitionRows I r (c, g) = (.error e, st) := by
  unfold transitionRows
  rw [currentDivide_bind]
  rcases hd : c.rowDivide with _ | d
  · exact ⟨_, _, rfl⟩
  rcases h with h | ⟨e, st, h⟩
  · rw [hd] at h; cases h
  dsimp only
  rw [Py.bind_apply, h]
  exact ⟨_, _, rfl⟩

/-- What a Gibbs step does on a row that is held. -/
theorem transitionRows_eq {c : Cgpm (n + 1)} (h : (cgpmTab Z (n + 1)).Reg c) {d : Prim}
    (hd : Node.rowDivide c = some d) {r : RowId} (hp : (cgpmTab Z (n + 1)).present c r) (g : Rng) :
    ∃ ob c1 z supp, (cgpmI (n + 1)).unobserve r (c, g) = (.ok (ob, []), (c1, g)) ∧
      (cgpmTab Z (n + 1)).Reg c1 ∧ IsMixture c1 z supp ∧
      transitionRows (cgpmI n) r (c, g) = finishStep (cgpmI (n + 1)) r ob [] z supp
        (Py.mapL (fun k : Int =>
          (cgpmI (n + 1)).logpdf none (Dict.set ob z (.num k)) [] []) supp (c1, g)) := by
  have K := cgpmTLaws Z (n + 1)
  obtain ⟨ob, c1, hu, hr1, -⟩ := K.unobserve c r g h hp
  obtain ⟨v, hd1, -⟩ := rowDivide_unobserve h hd hu
  obtain ⟨-, -, ⟨z, supp, hz, hs, -, -, hm⟩, -⟩ := reg_rowDivide hr1 hd1
  exact ⟨ob, c1, z, supp, hu, hr1, hm, transitionRows_steps hd hu hd1 hz hs⟩

/-- The steps of a Gibbs step on a row that ends without an exception. -/
theorem transitionRows_ok {c c' : Cgpm (n + 1)} (h : (cgpmTab Z (n + 1)).Reg c) {r : RowId} {g g' : Rng}
    (ht : transitionRows (cgpmI n) r (c, g) = (.ok (), (c', g'))) :
    ∃ ob c1 z supp, (cgpmI (n + 1)).unobserve r (c, g) = (.ok (ob, []), (c1, g)) ∧
      IsMixture c1 z supp ∧ ∃ logps c2 g2 i g3, Py.mapL (fun k : Int =>
        (cgpmI (n + 1)).logpdf none (Dict.set ob z (.num k)) [] []) supp (c1, g) = (.ok logps, (c2, g2)) ∧
      (cgpmSem (n + 1)).E c1 c2 ∧ i < supp.length ∧
      (cgpmI (n + 1)).observe r (Dict.set ob z (.num (supp.getD i 0 : Int))) [] (c2, g3) =
        (.ok (), (c', g')) := by
  have K := cgpmTLaws Z (n + 1)
  have L := cgpmLaws (n + 1)
  rcases hd : Node.rowDivide c with _ | d
  · obtain ⟨e, st, he⟩ := transitionRows_error (I := cgpmI n) (c := c) (r := r) (g := g) (.inl hd)
    rw [he] at ht; cases ht
  by_cases hp : (cgpmTab Z (n + 1)).present c r
  rotate_left
  · obtain ⟨e, he⟩ := K.unobserve_absent c r g h hp
    obtain ⟨e, st, he⟩ := transitionRows_error (I := cgpmI n) (c := c) (r := r) (g := g) (.inr ⟨e, _, he⟩)
    rw [he] at ht; cases ht
  obtain ⟨ob, c1, z, supp, hu, hr1, hm, heq⟩ := transitionRows_eq h hd hp g
  rw [heq] at ht
  unfold finishStep at ht
  refine ⟨ob, c1, z, supp, hu, hm, ?_⟩
  have hk : (cgpmSem (n + 1)).E c1 (Py.mapL (fun k : Int =>
      (cgpmI (n + 1)).logpdf none (Dict.set ob z (.num k)) [] []) supp (c1, g)).2.1 :=
    Py.Keeps.mapL L.trans (fun a b h => L.refl_right _ _ h) (fun k => L.logpdf_keeps _ _ _ _) supp _ _
      (L.refl _ (K.inv _ hr1))
  rcases hl : Py.mapL (fun k : Int =>
      (cgpmI (n + 1)).logpdf none (Dict.set ob z (.num k)) [] []) supp (c1, g) with ⟨_ | logps, c2, g2⟩ <;>
    rw [hl] at ht hk <;> dsimp only at ht hk
  · cases ht
  rcases hi : logPflipIdx logps g2 with ⟨_ | i, g3⟩ <;> rw [hi] at ht <;> dsimp only at ht
  · cases ht
  have hlt := logPflipIdx_lt (g := g2) (by rw [hi])
  rw [Py.mapL_length hl] at hlt
  exact ⟨logps, c2, g2, i, g3, rfl, hk, hlt, ht⟩

/-- Moving a row into the cluster of another one: the steps. -/
theorem setRowid_some {I : Iface S} {c c' : Node S} {r0 : RowId} {r1 : Int} {g g' : Rng}
    (h : setRowidComponent I false r0 (some r1) (c, g) = (.ok (), (c', g'))) :
    ∃ d k ob inp c1 g1 d1, c.rowDivide = some d ∧ Dict.get? d.data (some r1) = some k ∧
      (nodeI I).unobserve r0 (c, g) = (.ok (ob, inp), (c1, g1)) ∧ c1.rowDivide = some d1 ∧
      (nodeI I).observe r0 (Dict.set ob (d1.outputs.headD 0) k) inp (c1, g1) = (.ok (), (c', g')) := by
  unfold setRowidComponent at h
  rw [currentDivide_bind] at h
  rcases hd : c.rowDivide with _ | d <;> rw [hd] at h <;> dsimp only at h
  · cases h
  rw [if_neg (by simp), currentDivide_bind, hd] at h
  dsimp only at h
  rw [Py.lift_bind] at h
  rcases hk : Dict.get? d.data (some r1) with _ | k
  · rw [Dict.getItem, hk] at h; cases h
  rw [Dict.getItem_ok hk] at h
  dsimp only at h
  rw [Py.bind_apply] at h
  rcases hu : (nodeI I).unobserve r0 (c, g) with ⟨_ | ⟨ob, inp⟩, c1, g1⟩ <;> rw [hu] at h <;>
    dsimp only at h
  · cases h
  rw [currentDivide_bind] at h
  rcases hd1 : c1.rowDivide with _ | d1 <;> rw [hd1] at h <;> dsimp only at h
  · cases h
  exact ⟨d, k, ob, inp, c1, g1, d1, rfl, hk, rfl, hd1, h⟩

/-- Moving a row into a cluster of its own: the steps. -/
theorem setRowid_none {I : Iface S} {c c' : Node S} {r0 : RowId} {g g' : Rng}
    (h : setRowidComponent I false r0 none (c, g) = (.ok (), (c', g'))) :
    ∃ d k ob inp c1 g1 d1 supp, c.rowDivide = some d ∧ c.IsFlexible ∧
      (nodeI I).unobserve r0 (c, g) = (.ok (ob, inp), (c1, g1)) ∧ c1.rowDivide = some d1 ∧
      d1.support = .ok supp ∧ supp.getLast? = some k ∧
      (nodeI I).observe r0 (Dict.set ob (d1.outputs.headD 0) (.num (k : Int))) inp (c1, g1) =
        (.ok (), (c', g')) := by
  unfold setRowidComponent at h
  rw [currentDivide_bind] at h
  rcases hd : c.rowDivide with _ | d <;> rw [hd] at h <;> dsimp only at h
  · cases h
  rw [if_neg (by simp), Py.get_bind] at h
  dsimp only at h
  rw [Py.bind_apply, Py.assert_apply] at h
  by_cases hf : c.IsFlexible
  rotate_left
  · rw [if_neg hf] at h; cases h
  rw [if_pos hf] at h
  dsimp only at h
  rw [Py.bind_apply] at h
  rcases hu : (nodeI I).unobserve r0 (c, g) with ⟨_ | ⟨ob, inp⟩, c1, g1⟩ <;> rw [hu] at h <;>
    dsimp only at h
  · cases h
  rw [currentDivide_bind] at h
  rcases hd1 : c1.rowDivide with _ | d1 <;> rw [hd1] at h <;> dsimp only at h
  · cases h
  rw [Py.lift_bind] at h
  rcases hs : d1.support with _ | supp <;> rw [hs] at h <;> dsimp only at h
  · cases h
  rcases hk : supp.getLast? with _ | k <;> rw [hk] at h <;> dsimp only at h
  · cases h
  exact ⟨d, k, ob, inp, c1, g1, d1, supp, rfl, hf, rfl, hd1, hs, hk, h⟩

theorem crp_support_last {c : Crp} (h : c.Inv) {t : Int} (hl : c.support.getLast? = some t) :
    t ∉ Dict.values c.data := by
  obtain ⟨f, h1, h2⟩ := Crp.support_spec h
  rw [h1, List.getLast?_append] at hl
  simp only [List.getLast?_singleton, Option.some_or, Option.some.injEq] at hl
  subst hl
  exact Crp.nextTable_not_mem h2

/-- The cluster of every row of a mixture is in the divider. -/
theorem rowDivide_data {c : Cgpm (n + 1)} (h : (cgpmTab Z (n + 1)).Reg c) {z : Var} {supp : List Int}
    (hm : IsMixture c z supp) : ∃ d, Node.rowDivide c = some d ∧ d.outputs = [z] ∧
      d.support = .ok supp ∧ ∀ r, Dict.get? d.data r = (cgpmTab Z (n + 1)).cell c r z := by
  obtain ⟨d, h1, h2, h3⟩ := rowDivide_of_mixture hm
  exact ⟨d, h1, h2, h3, fun r => (reg_rowDivide h h1).2.2.2 r z h2⟩

theorem setRowid_some_eq {I : Iface S} {c c1 : Node S} {r0 : RowId} {r1 : Int} {g g1 : Rng} {d d1 : Prim}
    {k : Val} {ob inp : Dict Var Val} (hd : c.rowDivide = some d)
    (hk : Dict.get? d.data (some r1) = some k)
    (hu : (nodeI I).unobserve r0 (c, g) = (.ok (ob, inp), (c1, g1))) (hd1 : c1.rowDivide = some d1) :
    setRowidComponent I false r0 (some r1) (c, g) =
      (nodeI I).observe r0 (Dict.set ob (d1.outputs.headD 0) k) inp (c1, g1) := by
  unfold setRowidComponent
  rw [currentDivide_bind, hd]
  dsimp only
  rw [if_neg (by simp), currentDivide_bind, hd]
  dsimp only
  rw [Py.lift_bind, Dict.getItem_ok hk]
  dsimp only
  rw [Py.bind_apply, hu]
  dsimp only
  rw [currentDivide_bind, hd1]

theorem setRowid_none_eq {I : Iface S} {c c1 : Node S} {r0 : RowId} {g g1 : Rng} {d d1 : Prim}
    {k : Int} {supp : List Int} {ob inp : Dict Var Val} (hd : c.rowDivide = some d) (hf : c.IsFlexible)
    (hu : (nodeI I).unobserve r0 (c, g) = (.ok (ob, inp), (c1, g1))) (hd1 : c1.rowDivide = some d1)
    (hs : d1.support = .ok supp) (hk : supp.getLast? = some k) :
    setRowidComponent I false r0 none (c, g) =
      (nodeI I).observe r0 (Dict.set ob (d1.outputs.headD 0) (.num (k : Int))) inp (c1, g1) := by
  unfold setRowidComponent
  rw [currentDivide_bind, hd]
  dsimp only
  rw [if_neg (by simp), Py.get_bind]
  dsimp only
  rw [Py.bind_apply, Py.assert_apply, if_pos hf]
  dsimp only
  rw [Py.bind_apply, hu]
  dsimp only
  rw [currentDivide_bind, hd1]
  dsimp only
  rw [Py.lift_bind, hs]
  dsimp only
  rw [hk]

theorem setRowid_identical {I : Iface S} {c : Node S} {r0 : RowId} {r1 : RowId} {g : Rng} {d : Prim}
    (hd : c.rowDivide = some d) : setRowidComponent I true r0 r1 (c, g) = (.ok (), (c, g)) := by
  unfold setRowidComponent
  rw [currentDivide_bind, hd]
  rfl

/-- Moving a row into the cluster of another one. -/
theorem join_reg {c c' : Cgpm (n + 1)} (hreg : (cgpmTab Z (n + 1)).Reg c) {z : Var} {supp : List Int}
    (hm : IsMixture c z supp) {r0 : RowId} {r1 : Int} (hne : r0 ≠ some r1) {g g' : Rng}
    (hs : setRowidComponent (cgpmI n) false r0 (some r1) (c, g) = (.ok (), (c', g'))) :
    ∃ ob inp c1 k g1, (cgpmI (n + 1)).unobserve r0 (c, g) = (.ok (ob, inp), (c1, g1)) ∧
      WholeClusters Z (Dict.set ob z k) ∧
      (cgpmI (n + 1)).observe r0 (Dict.set ob z k) inp (c1, g1) = (.ok (), (c', g')) ∧
      (cgpmTab Z (n + 1)).Reg c' ∧ Moved Z z r0 c c' ∧ ∀ g,
      heldCell (cgpmI (n + 1)) c' g r0 z = heldCell (cgpmI (n + 1)) c' g (some r1) z ∧
      heldCell (cgpmI (n + 1)) c' g r0 z ≠ none := by
  have K := cgpmTLaws Z (n + 1)
  have L := cgpmLaws (n + 1)
  obtain ⟨d, k, ob, inp, c1, g1, d1, hd, hk, hu, hd1, ho⟩ := setRowid_some hs
  have hu : (cgpmI (n + 1)).unobserve r0 (c, g) = (.ok (ob, inp), (c1, g1)) := hu
  have ho : (cgpmI (n + 1)).observe r0 (Dict.set ob (d1.outputs.headD 0) k) inp (c1, g1) =
    (.ok (), (c', g')) := ho
  obtain ⟨d', hd', hz', -, hdata⟩ := rowDivide_data hreg hm
  rw [hd] at hd'
  cases hd'
  have hpres : (cgpmTab Z (n + 1)).present c r0 := by
    by_contra hn
    obtain ⟨e, he⟩ := K.unobserve_absent c r0 g hreg hn
    rw [hu] at he
    cases he
  obtain ⟨ob', c1', e1, hr1, -⟩ := K.unobserve c r0 g hreg hpres
  rw [hu] at e1
  cases e1
  obtain ⟨v, hv, -⟩ := rowDivide_unobserve hreg hd hu
  rw [hd1] at hv
  cases hv
  rw [Prim.outputs_remove, hz', List.headD_cons] at ho
  obtain ⟨-, -, ⟨z', supp1, hz1, -, hzZ, -, hm1⟩, -⟩ := reg_rowDivide hr1 hd1
  rw [Prim.outputs_remove, hz'] at hz1
  obtain rfl : z = z' := by simpa using hz1
  rw [hdata] at hk
  obtain ⟨k, rfl⟩ := K.whole c (some r1) z k hreg hzZ hk
  obtain ⟨f1, f2, f3, f4⟩ := move_row hreg hu (L.refl _ (K.inv _ hr1)) hm1 ho
  refine ⟨ob, _, c1, _, _, hu, f3, ho, f1, f4, fun g => ?_⟩
  rw [f4.others g (some r1) z (Ne.symm hne), heldCell_eq K f1, heldCell_eq K hreg, f2, hk]
  exact ⟨rfl, nofun⟩

/-- Moving a row into a cluster of its own. -/
theorem own_reg {c c' : Cgpm (n + 1)} (hreg : (cgpmTab Z (n + 1)).Reg c) {z : Var} {supp : List Int}
    (hm : IsMixture c z supp) {d : Crp} (hd : Node.rowDivide c = some (.crp d)) {r0 : RowId} {g g' : Rng}
    (hs : setRowidComponent (cgpmI n) false r0 none (c, g) = (.ok (), (c', g'))) :
    ∃ ob inp c1 k g1, (cgpmI (n + 1)).unobserve r0 (c, g) = (.ok (ob, inp), (c1, g1)) ∧
      WholeClusters Z (Dict.set ob z k) ∧
      (cgpmI (n + 1)).observe r0 (Dict.set ob z k) inp (c1, g1) = (.ok (), (c', g')) ∧
      (cgpmTab Z (n + 1)).Reg c' ∧ Moved Z z r0 c c' ∧ ∀ g, heldCell (cgpmI (n + 1)) c' g r0 z ≠ none ∧
      ∀ r1, r1 ≠ r0 → heldCell (cgpmI (n + 1)) c' g r1 z ≠ heldCell (cgpmI (n + 1)) c' g r0 z := by
  have K := cgpmTLaws Z (n + 1)
  have L := cgpmLaws (n + 1)
  obtain ⟨d', k, ob, inp, c1, g1, d1, supp1, hd', -, hu, hd1, hs1, hk, ho⟩ := setRowid_none hs
  have hu : (cgpmI (n + 1)).unobserve r0 (c, g) = (.ok (ob, inp), (c1, g1)) := hu
  have ho : (cgpmI (n + 1)).observe r0 (Dict.set ob (d1.outputs.headD 0) (.num (k : Int))) inp (c1, g1) =
    (.ok (), (c', g')) := ho
  obtain ⟨d2, hd2, hz', -, hdata⟩ := rowDivide_data hreg hm
  rw [hd] at hd' hd2
  cases hd'
  cases hd2
  have hpres : (cgpmTab Z (n + 1)).present c r0 := by
    by_contra hn
    obtain ⟨e, he⟩ := K.unobserve_absent c r0 g hreg hn
    rw [hu] at he
    cases he
  obtain ⟨ob', c1', e1, hr1, -, -, hfr, hoth, -⟩ := K.unobserve c r0 g hreg hpres
  rw [hu] at e1
  cases e1
  obtain ⟨v, hv, -⟩ := rowDivide_unobserve hreg hd hu
  rw [hd1] at hv
  cases hv
  obtain ⟨hG, -, ⟨z', _, hz1, -, hzZ, -, hm1⟩, hdata1⟩ := reg_rowDivide hr1 hd1
  have hz2 := hz1
  rw [Prim.outputs_remove, hz'] at hz1
  obtain rfl : z = z' := by simpa using hz1
  rw [hz2, List.headD_cons] at ho
  obtain ⟨f1, f2, f3, f4⟩ := move_row hreg hu (L.refl _ (K.inv _ hr1)) hm1 ho
  refine ⟨ob, _, c1, _, _, hu, f3, ho, f1, f4, fun g => ?_⟩
  rw [heldCell_eq K f1, f2]
  refine ⟨nofun, fun r1 hr => ?_⟩
  rw [f4.others g r1 z hr, heldCell_eq K hreg, ← hoth r1 z hr, ← hdata1 r1 z hz2]
  have hlast : ∀ (p : Prim), p.Good → p.kind = .crp → p.support = .ok supp1 →
      ∀ r1, Dict.get? p.data r1 ≠ some (.num (k : ℚ)) := by
    intro p hG hkd hsp r1 hx
    cases p with
    | crp e =>
      cases hsp
      have := crp_support_last hG.1 hk
      apply this
      have hmem := Dict.mem_of_get? hx
      simp only [Prim.data, List.mem_map] at hmem
      obtain ⟨kv, hkv, hkv2⟩ := hmem
      have : ((kv.2 : Int) : ℚ) = (k : ℚ) := by
        have := (Prod.ext_iff.1 hkv2).2
        simpa only [Val.num.injEq] using this
      have : kv.2 = k := by exact_mod_cast this
      rw [← this]
      exact List.mem_map.2 ⟨kv, hkv, rfl⟩
    | _ => cases hkd
  exact hlast _ hG (by rw [Prim.kind_remove]; rfl) hs1 r1

theorem unobserve_inputs {c c1 : Cgpm n} (h : (cgpmTab Z n).Reg c) {r : RowId} {g g1 : Rng}
    {ob inp : Dict Var Val} (hu : (cgpmI n).unobserve r (c, g) = (.ok (ob, inp), (c1, g1))) : inp = [] := by
  have K := cgpmTLaws Z n
  have hpres : (cgpmTab Z n).present c r := by
    by_contra hn
    obtain ⟨e, he⟩ := K.unobserve_absent c r g h hn
    rw [hu] at he
    cases he
  obtain ⟨ob', c1', e1, -⟩ := K.unobserve c r g h hpres
  rw [hu] at e1
  cases e1
  rfl

end Cgpm2
