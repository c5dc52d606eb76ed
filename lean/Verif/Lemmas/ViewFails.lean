import Verif.Lemmas.ViewTotal
import Verif.Lemmas.ConcreteViews
import Verif.Spec.Draws

/-!
# When moves of columns fail (helpers)
-/

namespace Cgpm2.Views
open Spec Cpp

theorem proposalExisting_fails {Z : List Var} {X : RowId → Var → Option Val} {outs : List Var}
    {bases : List Prim} {datasets : List (List (RowId × Dict Var Val))}
    (h : Fed Z X outs bases datasets.flatten) {v : View} (hr : (cgpmTab Z 2).Reg v) (hv : IsView v)
    {o : Var} (ho : o ∈ outs) (hov : o ∈ (cgpmI 2).outputs v) (g : Rng) {p : View} {s : View × Rng} :
    proposalExisting bases datasets (v, g) ≠ (.ok p, s) := by
  intro he
  unfold proposalExisting at he
  dsimp only at he
  rcases e1 : bases.foldlM (addCgpm 2) v with e | w
  · rw [e1] at he; cases he
  · obtain ⟨a1, -, a3, -⟩ := addCgpm_views h.reg hr hv e1
    have hn := (cgpmTLaws Z 2).nodup _ a1
    rw [a3, h.base] at hn
    exact (List.nodup_append.1 hn).2.2 o hov o ho rfl

theorem proposeFrom_fails {Z : List Var} {X : RowId → Var → Option Val} {outs : List Var}
    {bases : List Prim} {datasets : List (List (RowId × Dict Var Val))}
    (h : Fed Z X outs bases datasets.flatten) {cur : Nat} (hc : 256 < cur)
    {views : List View} {i j : Nat} (hr : ∀ v ∈ views, (cgpmTab Z 2).Reg v ∧ IsView v) {v : View}
    (hj : views[j]? = some v) (hij : i + j = cur) {o : Var} (ho : o ∈ outs) (hov : o ∈ (cgpmI 2).outputs v)
    (g : Rng) {ps : List View} {s : List View × Rng} :
    proposeFrom bases datasets cur i views g ≠ (.ok ps, s) := by
  induction views generalizing i j g ps s with
  | nil => simp at hj
  | cons w views ih =>
    intro he
    unfold proposeFrom at he
    rcases h1 : proposeOne bases datasets cur i (w, g) with ⟨e | p, ⟨w', g1⟩⟩
    · rw [h1] at he; cases he
    · rw [h1] at he
      dsimp only at he
      rcases j with _ | j
      · simp only [List.getElem?_cons_zero, Option.some.injEq] at hj
        subst hj
        unfold proposeOne at h1
        rw [if_neg (by simp [sameInt]; omega)] at h1
        exact proposalExisting_fails h (hr w (by simp)).1 (hr w (by simp)).2 ho hov g h1
      · rcases h2 : proposeFrom bases datasets cur (i + 1) views g1 with ⟨e | qs, s'⟩
        · rw [h2] at he; cases he
        · exact ih (fun v hv => hr v (by simp [hv])) (j := j) hj (by omega) g1 h2

/-- A column of a view after the 257th is not sampled. -/
theorem transition_fails {Z : List Var} {x : Crosscat} (h : CC Z x) {outs : List Var} (hne : outs ≠ [])
    {k : Nat} {v : View} (hk : x.cgpms[k]? = some v) (ho : ∀ o ∈ outs, o ∈ viewColumns v)
    (hk256 : 256 < k) (aux : Nat) (g : Rng) {x' : Crosscat} {s : Crosscat × Rng} :
    transitionViewAssignments outs aux (x, g) ≠ (.ok x', s) := by
  intro he
  have hcol : ∀ o ∈ outs, o ∈ columns x := fun o h' => mem_columns.2 ⟨v, List.mem_of_getElem? hk, ho o h'⟩
  unfold transitionViewAssignments at he
  obtain ⟨ps, s1, e1, -⟩ := run_bind he
  unfold proposals at e1
  obtain ⟨ps, s2, e1, -⟩ := run_bind e1
  unfold proposalsExisting at e1
  rw [Py.get_bind] at e1
  dsimp only at e1
  rw [viewIndex_total h hne hk ho, Py.lift_bind] at e1
  dsimp only at e1
  rcases hb : basesOf x outs with e | ⟨bases, ds⟩
  · rw [hb, Py.lift_bind] at e1; cases e1
  · rw [hb, Py.lift_bind] at e1
    dsimp only at e1
    obtain ⟨o, hoo⟩ := List.exists_mem_of_ne_nil _ hne
    unfold onViews at e1
    dsimp only at e1
    rcases hp : proposeFrom bases ds k 0 x.cgpms g with ⟨r, s3⟩
    rw [hp] at e1
    cases e1
    exact proposeFrom_fails (basesOf_ok h hcol hb) hk256 h.all hk (by omega) hoo (columns_sub (ho o hoo)) g hp

/-- The cluster variable of a new view is the one drawn. -/
theorem proposalSingleton_head {Z : List Var} {X : RowId → Var → Option Val} {outs : List Var}
    {bases : List Prim} {datasets : List (List (RowId × Dict Var Val))}
    (h : Fed Z X outs bases datasets.flatten) (hne : outs ≠ []) {p : View} {g g' : Rng}
    (ho : proposalSingleton bases datasets g = (.ok p, g')) : (cgpmI 2).outputs p = drawnVar g :: outs := by
  unfold proposalSingleton at ho
  have hr : randint g = (.ok ⌊g.uniform.1 * (2 ^ 32 - 1)⌋.toNat, g.uniform.2) := rfl
  rw [hr] at ho
  dsimp only at ho
  change (match (do
        let base ← Product.init primI bases
        FlexMix.init (.crp (Crp.init [drawnVar g] [] [] [])) (.product base : Node Prim) :
          Except Err (FlexMix (Node Prim))) with
    | .error e => ((.error e, g.uniform.2) : Except Err View × Rng)
    | .ok m =>
      match observeAll datasets.flatten ((.flexMix m : Node (Node Prim)), g.uniform.2) with
      | (.ok _, (view, g')) => (.ok view, g')
      | (.error e, (_, g')) => (.error e, g')) = _ at ho
  rcases hm : (do
        let base ← Product.init primI bases
        FlexMix.init (.crp (Crp.init [drawnVar g] [] [] [])) (.product base : Node Prim) :
          Except Err (FlexMix (Node Prim))) with e | m
  · rw [hm] at ho; cases ho
  rw [hm] at ho
  dsimp only at ho
  rcases hob : observeAll datasets.flatten ((.flexMix m : Node (Node Prim)), g.uniform.2) with ⟨_ | ⟨⟩, q', g2⟩
  · rw [hob] at ho; cases ho
  rw [hob] at ho
  cases ho
  rcases hv : Product.validate primI bases with e | u
  · unfold Product.init at hm
    rw [hv] at hm; cases hm
  have hbne : bases ≠ [] := by
    rintro rfl
    exact hne (by rw [← h.base]; rfl)
  have hbase : ∀ {Z' : List Var}, (∀ p ∈ bases, (primTab Z').Reg p) →
      (cgpmTab Z' 1).Reg (.product ⟨bases⟩ : Node Prim) := fun hb => ⟨hb, hv, hbne⟩
  have hm' : m = ⟨.crp (Crp.init [drawnVar g] [] [] []),
      FlexArray.init (.product ⟨bases⟩ : Node Prim) (drawnVar g), []⟩ := by
    unfold Product.init FlexMix.init at hm
    rw [hv] at hm
    cases hm
    rfl
  have hgood : (Prim.crp (Crp.init [drawnVar g] [] [] [])).Good := by
    refine ⟨Crp.inv_init _ _ _ _, ?_⟩
    simp [LegalHypers, Crp.init]
  have hfresh : ∀ r, (cgpmTab Z 1).Fresh (.product ⟨bases⟩ : Node Prim) r := by
    intro r x
    refine ProdTab.cell_none_iff.2 fun p hp => ?_
    simp [cgpmTab, primTab, (h.reg p hp).2.1]
  have hscore : (cgpmI 1).logpdfScore (.product ⟨bases⟩ : Node Prim) = .ok (.fin 0) := by
    refine (cgpmFrame Z 1).zero _ (hbase fun p hp => (h.reg p hp).1) hfresh ?_
    refine (sumScore_fin_iff primI.logpdfScore bases).2 fun p hp => ?_
    exact ⟨_, Prim.logpdfScore_eq (h.reg p hp).1.1.1 (h.reg p hp).1.1.2⟩
  have hout : (cgpmI 2).outputs (.flexMix m : Node (Node Prim)) = drawnVar g :: outs := by
    rw [hm', ← h.base]; rfl
  rw [← hout]
  refine observeAll_outputs ?_ hob
  rw [hm']
  exact flexMix_init_inv hgood (hbase fun p hp => (h.reg p hp).1) hscore

/-- A column that is not alone in its view does not get a view of its own if the variable drawnInt is
in use. -/
theorem setSingleton_fails {Z : List Var} {x : Crosscat} (h : CC Z x) {o0 o : Var}
    (h0 : o0 ∈ columns x) (hoo : o ≠ o0) (ht : Together x o0 o) (g : Rng)
    (hz : drawnVar g ∈ (cgpmI 3).outputs (whole x)) {x' : Crosscat} {s : Crosscat × Rng} :
    setSingleton o0 (x, g) ≠ (.ok x', s) := by
  intro he
  obtain ⟨u, hu, hzu⟩ := List.mem_flatMap.1 (show drawnVar g ∈ x.cgpms.flatMap (cgpmI 2).outputs from hz)
  unfold setSingleton at he
  obtain ⟨⟨xa, ga⟩, s1, e1, he⟩ := run_bind he
  cases e1
  dsimp only at he
  obtain ⟨i0, s1, e1, he⟩ := run_bind he
  obtain ⟨hi0, rfl⟩ := lift_ok e1
  obtain ⟨v0, hv0, ho0⟩ := viewIndex_view h hi0 (by simp) (by simpa using h0)
  obtain ⟨w0, s1, e1, he⟩ := run_bind he
  obtain ⟨hw0, rfl⟩ := lift_ok e1
  have := item_ok hw0
  rw [hv0] at this
  cases this
  obtain ⟨v0', s1, e1, he⟩ := run_bind he
  obtain ⟨hv0', rfl⟩ := lift_ok e1
  obtain ⟨⟨bases, datasets⟩, s1, e1, he⟩ := run_bind he
  obtain ⟨hb, rfl⟩ := lift_ok e1
  obtain ⟨T, ⟨xb, gb⟩, e1, he⟩ := run_bind he
  have hfed := basesOf_ok h (by simpa using h0) hb
  obtain ⟨hps, rfl⟩ := onSnd_ok e1
  have hz' := proposalSingleton_head hfed (by simp) hps
  obtain ⟨y1, s1, e1, he⟩ := run_bind he
  obtain ⟨hy1, rfl⟩ := lift_ok e1
  obtain ⟨y2, s1, e1, he⟩ := run_bind he
  obtain ⟨hy2, rfl⟩ := lift_ok e1
  obtain ⟨hx', -⟩ := lift_ok he
  have m0 := List.mem_of_getElem? hv0
  have hny1 := nodup_of_drop h.nodup m0 (h.head_mem m0) hy1
  obtain ⟨p2, -⟩ := restore_ok hy2 hny1
  obtain ⟨p4, p5⟩ := putView_ok hx'
  have hnd := Product.validate_nodup p5
  rw [List.flatMap_append, List.nodup_append] at hnd
  obtain ⟨-, hnT, hdis⟩ := hnd
  rw [List.flatMap_cons, List.flatMap_nil, List.append_nil, hz'] at hnT hdis
  have hzo : drawnVar g ≠ o0 := fun e => (List.nodup_cons.1 hnT).1 (by simp [e])
  -- the variable is still in use
  refine hdis (drawnVar g) ?_ (drawnVar g) List.mem_cons_self rfl
  obtain ⟨m, p, hf⟩ := flat_of_reg (h.viewReg m0) (h.views v0 m0)
  obtain ⟨-, m', p', a2, a3, a4, -⟩ := remove_views (Z := Z) hf (foldlM_one hv0')
  have hcols : viewColumns v0 = p.cgpms.flatMap (cgpmI 0).outputs := by
    unfold viewColumns; rw [hf.outputs]; rfl
  have ho0' : o0 ∈ viewColumns v0 := ho0 o0 (by simp)
  have hov : o ∈ viewColumns v0 := by
    obtain ⟨u, hu, hu1, hu2⟩ := ht
    rwa [h.eq_view hu m0 (columns_sub hu1) (columns_sub ho0')] at hu2
  have hkeep : ∀ a ∈ (cgpmI 2).outputs v0, a ≠ o0 → a ∈ (cgpmI 2).outputs v0' := by
    intro a ha hne
    rw [a2.outputs, a3, a4]
    rw [hf.outputs] at ha
    rcases List.mem_cons.1 ha with rfl | ha
    · exact List.mem_cons_self
    · exact List.mem_cons_of_mem _ (List.mem_filter.2 ⟨ha, by simpa using hne⟩)
  have hlen : 1 < ((cgpmI 2).outputs v0').length := by
    have hoi := hcols ▸ hov
    rw [a2.outputs, a4, List.length_cons]
    have : o ∈ (p.cgpms.flatMap (cgpmI 0).outputs).filter (fun x => decide (x ∉ [o0])) :=
      List.mem_filter.2 ⟨hoi, by simpa using hoo⟩
    have := List.length_pos_of_mem this
    omega
  rw [p2, if_pos hlen, List.flatMap_append, List.mem_append]
  have hperm := dropView_ok h.nodup m0 (h.head_mem m0) hy1
  rcases List.mem_cons.1 (hperm.mem_iff.1 hu) with rfl | hu
  · exact .inr (List.mem_flatMap.2 ⟨v0', by simp, hkeep _ hzu hzo⟩)
  · exact .inl (List.mem_flatMap.2 ⟨u, hu, hzu⟩)

end Cgpm2.Views
