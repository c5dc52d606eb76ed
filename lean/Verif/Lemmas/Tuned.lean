import Verif.Lemmas.HyperErgodic
import Verif.Lemmas.RowReach
import Verif.Lemmas.Tune
import Verif.Spec.JointPosterior

/-!
# Views with other hyperparameters (helpers)
-/

namespace Cgpm2
open Spec

/-! ## Primitives -/

theorem Prim.sameModel_of {p q : Prim} (hn : p.kind ≠ .normalUC) (ht : SameType p q) (ho : p.outputs = q.outputs)
    (hh : p.getHypers = q.getHypers) : SameModel p q := by
  cases p <;> cases q <;> try (first | (simp [SameType, Prim.kind] at ht; done) | exact absurd rfl hn)
  case crp.crp a b =>
    simp [getHypers, Crp.getHypers] at hh
    exact ⟨ho, hh⟩
  case categorical.categorical a b =>
    simp [getHypers, Categorical.getHypers] at hh
    exact ⟨ho, hh, ht⟩
  case bernoulli.bernoulli a b =>
    simp [getHypers, Bernoulli.getHypers] at hh
    exact ⟨ho, hh⟩
  case normal.normal a b =>
    simp [getHypers, Normal.getHypers] at hh
    exact ⟨ho, hh⟩
  case poisson.poisson a b =>
    simp [getHypers, Poisson.getHypers] at hh
    exact ⟨ho, hh⟩

theorem Prim.sameModel_hypers {p q : Prim} (hn : p.kind ≠ .normalUC) (h : SameModel p q) : p.getHypers = q.getHypers := by
  cases p <;> cases q <;> try (first | exact h.elim | exact absurd rfl hn)
  all_goals
    simp only [SameModel] at h
    simp [getHypers, Crp.getHypers, Categorical.getHypers, Bernoulli.getHypers, Normal.getHypers, Poisson.getHypers, h]

theorem sameType_iff {p q : Prim} : SameType p q ↔ p.kind = q.kind ∧ p.card = q.card := by
  cases p <;> cases q <;> simp [SameType, Prim.kind, Prim.card]

theorem Spec.SameModel.type {p q : Prim} (h : SameModel p q) : SameType p q := by
  have := h.shape
  unfold Prim.shape at this
  injection this with _ h1 h2
  exact sameType_iff.2 ⟨h1, h2⟩

theorem withHypers_type (h : Dict String ℝ) (p : Prim) : SameType p (p.withHypers h) :=
  sameType_iff.2 ⟨(Prim.withHypers_kind h p).symm, (SameButHypers.card (Prim.setHypers_same p h)).symm⟩

theorem withHypers_outputs (h : Dict String ℝ) (p : Prim) : (p.withHypers h).outputs = p.outputs :=
  (Prim.setHypers_same p h).outputs

theorem SameType.trans' {p q r : Prim} (h : SameType p q) (h' : SameType q r) : SameType p r := by
  rw [sameType_iff] at *
  exact ⟨h.1.trans h'.1, h.2.trans h'.2⟩

theorem SameType.symm' {p q : Prim} (h : SameType p q) : SameType q p := by
  rw [sameType_iff] at *
  exact ⟨h.1.symm, h.2.symm⟩

theorem update_full {k : Prim.Kind} {d h : Dict String ℝ} (hd : Dict.keys d = hyperNames k) (hh : Dict.keys h = hyperNames k) :
    Dict.update d h = h := by
  obtain ⟨e1, e2⟩ : (∃ a, d = a) ∧ ∃ b, h = b := ⟨⟨_, rfl⟩, _, rfl⟩
  have nd : (Dict.keys h).Nodup := by rw [hh]; exact hyperNames_nodup k
  have hkeys : ∀ (e d : Dict String ℝ), (∀ n ∈ Dict.keys e, n ∈ Dict.keys d) → Dict.keys (Dict.update d e) = Dict.keys d := by
    intro e
    induction e with
    | nil => intro d _; rfl
    | cons kv e ih =>
      intro d hs
      have h1 : Dict.keys (Dict.set d kv.1 kv.2) = Dict.keys d := Dict.keys_set_of_mem _ _ _ (hs kv.1 List.mem_cons_self)
      rw [Dict.update_cons, ih _ fun n hn => by rw [h1]; exact hs n (List.mem_cons_of_mem _ hn), h1]
  have hk := hkeys h d fun n hn => by rw [hd, ← hh]; exact hn
  refine Dict.ext_keys (by rw [hk, hd, hh]) (by rw [hk, hd]; exact hyperNames_nodup k) fun n hn => ?_
  rw [Dict.get?_update _ _ nd]
  rw [hk, hd, ← hh] at hn
  obtain ⟨x, hx⟩ := Dict.exists_get?_of_mem_keys hn
  rw [hx]

theorem each_update {k : Prim.Kind} (hn : k ≠ .normalUC) {h : Dict String ℝ} (hh : FullHypers k h) :
    ∀ (ps : List Prim), (∀ p ∈ ps, p.kind = k) → ∀ g : Rng,
      Py.each (updateHypers h) (ps, g) = (.ok (ps.map fun _ => ()), (ps.map (Prim.withHypers h), g)) := by
  intro ps
  induction ps with
  | nil => intro _ g; rfl
  | cons p ps ih =>
    intro hp g
    have hpk := hp p List.mem_cons_self
    have e : Dict.update p.getHypers h = h :=
      update_full (by rw [Prim.keys_getHypers (by rw [hpk]; exact hn), hpk]) hh.2
    rw [Py.each_cons, updateHypers_eq, e, Prim.setHypers_ok (by rw [hpk]; exact hh.1)]
    dsimp only
    rw [ih fun q hq => hp q (List.mem_cons_of_mem _ hq)]
    rfl

theorem setHypersAll_full {k : Prim.Kind} (hn : k ≠ .normalUC) {h : Dict String ℝ} (hh : FullHypers k h) {ps : List Prim}
    (hp : ∀ p ∈ ps, p.kind = k) (g : Rng) : setHypersAll h (ps, g) = (.ok (), (ps.map (Prim.withHypers h), g)) := by
  unfold setHypersAll
  rw [Py.get_bind]
  dsimp only
  rw [Py.assert_bind_pos (sameClass_of_allOf hp), Py.bind_apply, each_update hn hh ps hp]
  rfl

namespace Views
open Cpp
variable {Z : List Var} {v u w : View} {o : Var} {h : Dict String ℝ}

/-- The score of a view is the sum of the scores of its objects. -/
theorem score_prims (hr : (cgpmTab Z 2).Reg v) (hv : IsView v) :
    (cgpmI 2).logpdfScore v = .ok (.fin ((primsIn 2 v).map Prim.score).sum) := by
  obtain ⟨m, p, hf⟩ := flat_of_reg hr hv
  have h0 := hr
  rw [hf.eq] at h0
  have hm : MixReg _ _ _ _ _ _ _ m := h0
  have part : ∀ c : Cgpm 1, c ∈ m.array.base :: Dict.values m.array.cgpms →
      (cgpmI 1).logpdfScore c = .ok (.fin ((primsIn 1 c).map Prim.score).sum) := by
    intro c hc
    obtain ⟨hr, q, rfl, hs⟩ := comps_product hf hr hc
    have e0 : q.cgpms.mapM (cgpmI 0).logpdfScore = .ok (q.cgpms.map fun b => Fl.fin (Prim.score b)) :=
      mapM_ok _ _ _ fun b hb => Prim.logpdfScore_eq (hr.1 b hb).1.1 (hr.1 b hb).1.2
    change Product.logpdfScore (cgpmI 0) q = _
    unfold Product.logpdfScore
    rw [e0]
    simp only [bind, Except.bind, pure, Except.pure, Except.ok.injEq]
    refine (fl_sum_fin (show List Prim from q.cgpms) Prim.score).trans ?_
    have : primsIn 1 (.product q : Node (Cgpm 0)) = (show List Prim from q.cgpms) := by
      change q.cgpms.flatMap (primsIn 0) = _
      exact List.flatMap_singleton' _
    rw [this]
  have hbase : ((primsIn 1 m.array.base).map Prim.score).sum = 0 := by
    have h1 := hm.inv.2.1.1.2
    rw [part _ List.mem_cons_self] at h1
    injection h1 with h1
    injection h1
  rw [hf.eq]
  change RowMix.logpdfScore (flexArrayI (cgpmI 1)) m = _
  have e1 : (flexArrayI (cgpmI 1)).logpdfScore m.array =
      .ok (.fin (((Dict.values m.array.cgpms).flatMap (primsIn 1)).map Prim.score).sum) := by
    change FlexArray.logpdfScore (cgpmI 1) m.array = _
    unfold FlexArray.logpdfScore
    rw [mapM_ok _ _ (fun c => Fl.fin ((primsIn 1 c).map Prim.score).sum) fun c hc => part c (List.mem_cons_of_mem _ hc)]
    simp only [bind, Except.bind, pure, Except.pure, Except.ok.injEq]
    refine (fl_sum_fin (Dict.values m.array.cgpms) fun c => ((primsIn 1 c).map Prim.score).sum).trans ?_
    congr 1
    induction Dict.values m.array.cgpms with
    | nil => rfl
    | cons c l ih => rw [List.map_cons, List.sum_cons, ih, List.flatMap_cons, List.map_append, List.sum_append]
  unfold RowMix.logpdfScore
  rw [Prim.logpdfScore_eq hm.inv.1.1 hm.inv.1.2, e1]
  change Except.ok (Fl.fin _) = Except.ok (Fl.fin _)
  congr 2
  change _ = ((m.rowDivide :: ((Dict.values m.array.cgpms).flatMap (primsIn 1) ++ primsIn 1 m.array.base)).map Prim.score).sum
  rw [List.map_cons, List.sum_cons, List.map_append, List.sum_append, hbase, add_zero]

/-- The view with other hyperparameters for a column. -/
noncomputable def tuned (o : Var) (h : Dict String ℝ) (v : View) : View :=
  match cgpmsByOutput 2 v o with
  | .ok refs => refs.put (refs.objs.map (Prim.withHypers h))
  | .error _ => v

/-- The object with other hyperparameters if it is one of the column. -/
noncomputable def retune (o : Var) (h : Dict String ℝ) (p : Prim) : Prim :=
  if p.outputs = [o] then p.withHypers h else p

theorem retune_outputs (p : Prim) : (retune o h p).outputs = p.outputs := by
  unfold retune
  split
  · exact withHypers_outputs h p
  · rfl

theorem retune_type (p : Prim) : SameType p (retune o h p) := by
  unfold retune
  split
  · exact withHypers_type h p
  · exact sameType_iff.2 ⟨rfl, rfl⟩

theorem fill_map (f : Prim → Prim) (l : List Prim) :
    fill o ((colOf o l).map f) l = l.map fun p => if p.outputs = [o] then f p else p := by
  induction l with
  | nil => rfl
  | cons p l ih =>
    by_cases hp : p.outputs = [o]
    · have : colOf o (p :: l) = p :: colOf o l := by simp [colOf, hp]
      rw [this, List.map_cons, fill, if_pos hp, List.map_cons, if_pos hp]
      simp only [List.headD_cons, List.tail_cons, ih]
    · have : colOf o (p :: l) = colOf o l := by simp [colOf, hp]
      rw [this, fill, if_neg hp, List.map_cons, if_neg hp, ih]

theorem retunedList_with (ps : List Prim) (h : Dict String ℝ) : RetunedList ps (ps.map (Prim.withHypers h)) := by
  induction ps with
  | nil => exact .nil
  | cons p ps ih => exact .cons (setHypers_retuned p h) ih

theorem tuned_refs (hr : (cgpmTab Z 2).Reg v) (ho : o ∈ (cgpmI 2).outputs v) : ∃ r, cgpmsByOutput 2 v o = .ok r ∧
    Found (primsIn 2) v o r ∧ ∀ h, tuned o h v = r.put (r.objs.map (Prim.withHypers h)) := by
  obtain ⟨r, h1, h2⟩ := (cgpm_walk Z 2 v hr).walk o ho
  refine ⟨r, h1, h2, fun h => ?_⟩
  unfold tuned
  rw [h1]

theorem prims_tuned (hr : (cgpmTab Z 2).Reg v) (ho : o ∈ (cgpmI 2).outputs v) :
    primsIn 2 (tuned o h v) = (primsIn 2 v).map (retune o h) := by
  obtain ⟨r, -, h2, h3⟩ := tuned_refs hr ho
  rw [h3, h2.fill _ (List.length_map ..), h2.objs, fill_map]
  rfl

theorem tuned_tune (hr : (cgpmTab Z 2).Reg v) (ho : o ∈ (cgpmI 2).outputs v) :
    Tune (cgpmI 2) (cgpmSem 2) (cgpmTab Z 2) v (tuned o h v) := by
  obtain ⟨r, h1, -, h3⟩ := tuned_refs hr ho
  rw [h3]
  exact cgpm_tune Z 2 v hr o ho r h1 _ (retunedList_with _ h)

theorem tuned_view (hr : (cgpmTab Z 2).Reg v) (hv : IsView v) (ho : o ∈ (cgpmI 2).outputs v) : IsView (tuned o h v) :=
  isView_of_shape (tuned_tune hr ho).shape (tuned_tune hr ho).reg hv

theorem tuned_partition (hr : (cgpmTab Z 2).Reg v) (ho : o ∈ (cgpmI 2).outputs v) : SamePartition v (tuned o h v) := by
  have t := tuned_tune (h := h) hr ho
  rw [samePartition_iff hr t.reg]
  have : ∀ r, Views.clusterOf (tuned o h v) r = Views.clusterOf v r := fun r => by
    rw [clusterOf_eq Z, clusterOf_eq Z, t.outputs, t.cell]
  intro r r'
  rw [this, this]

theorem tuned_cell (hr : (cgpmTab Z 2).Reg v) (ho : o ∈ (cgpmI 2).outputs v) (g : Rng) (r : RowId) (x : Var) :
    heldCell (cgpmI 2) (tuned o h v) g r x = heldCell (cgpmI 2) v g r x := by
  have t := tuned_tune (h := h) hr ho
  rw [heldCell_eq (cgpmTLaws Z 2) t.reg, heldCell_eq (cgpmTLaws Z 2) hr, t.cell]

theorem tuned_tidy (ht : Tidy Z 2 v) (ho : o ∈ (cgpmI 2).outputs v) {k : Prim.Kind} (hn : k ≠ .normalUC)
    (hk : ∀ p ∈ primsIn 2 v, p.outputs = [o] → p.kind = k) (hh : FullHypers k h) : Tidy Z 2 (tuned o h v) := by
  obtain ⟨r, h1, h2, h3⟩ := tuned_refs (tidy_reg ht) ho
  have := Tidy.setHypers ht ho h fun _ => ⟨0, 0⟩
  unfold onColumn at this
  dsimp only at this
  rw [h1] at this
  dsimp only at this
  rw [setHypersAll_full hn hh (by
    rw [h2.objs]
    intro p hp
    obtain ⟨hp, e⟩ := List.mem_filter.1 hp
    exact hk p hp (of_decide_eq_true e))] at this
  rw [h3]
  exact this

theorem hypersAt_eq (v : View) (o : Var) : hypersAt v o = (colOf o (primsIn 2 v)).head?.map Prim.getHypers := rfl

theorem col_nonempty (hr : (cgpmTab Z 2).Reg v) (ho : o ∈ (cgpmI 2).outputs v) : ∃ p ps, colOf o (primsIn 2 v) = p :: ps ∧
    p ∈ primsIn 2 v ∧ p.outputs = [o] := by
  obtain ⟨p, hp, e⟩ := cgpm_covers Z 2 v hr o ho
  have hm : p ∈ colOf o (primsIn 2 v) := List.mem_filter.2 ⟨hp, by simpa using e⟩
  rcases hc : colOf o (primsIn 2 v) with _ | ⟨q, qs⟩
  · rw [hc] at hm
    cases hm
  · have hq : q ∈ colOf o (primsIn 2 v) := by rw [hc]; exact List.mem_cons_self
    obtain ⟨h1, h2⟩ := List.mem_filter.1 hq
    exact ⟨q, qs, rfl, h1, of_decide_eq_true h2⟩

theorem colOf_map (o' : Var) (l : List Prim) : colOf o' (l.map (retune o h)) = (colOf o' l).map (retune o h) := by
  unfold colOf
  rw [List.filter_map]
  congr 1
  refine List.filter_congr fun p _ => ?_
  simp only [Function.comp, retune_outputs]

theorem hypersAt_tuned (hr : (cgpmTab Z 2).Reg v) (ho : o ∈ (cgpmI 2).outputs v) {k : Prim.Kind} (hn : k ≠ .normalUC)
    (hk : ∀ p ∈ primsIn 2 v, p.outputs = [o] → p.kind = k) (hh : FullHypers k h) (o' : Var) :
    hypersAt (tuned o h v) o' = if o' = o then some h else hypersAt v o' := by
  rw [hypersAt_eq, prims_tuned hr ho, colOf_map]
  by_cases e : o' = o
  · subst e
    rw [if_pos rfl]
    obtain ⟨p, ps, h1, h2, h3⟩ := col_nonempty hr ho
    rw [h1, List.map_cons, List.head?_cons, Option.map_some]
    unfold retune
    have hpk := hk p h2 h3
    rw [if_pos h3, withHypers_get (by rw [hpk]; exact hn) (by rw [hpk]; exact hh.1) (by rw [hpk]; exact hh.2)]
  · rw [if_neg e, hypersAt_eq]
    congr 2
    refine (List.map_congr_left fun p hp => ?_).trans (List.map_id _)
    obtain ⟨-, h2⟩ := List.mem_filter.1 hp
    have h2 := of_decide_eq_true h2
    unfold retune
    rw [if_neg (by rw [h2]; simpa using e)]
    rfl

/-- The weight of a view with other hyperparameters is the weight of the objects of the column, up to
a factor. -/
theorem joint_tuned (hr : (cgpmTab Z 2).Reg v) (hv : IsView v) (ho : o ∈ (cgpmI 2).outputs v) (h : Dict String ℝ) :
    joint (tuned o h v) = ENNReal.ofReal (Real.exp (((primsIn 2 v).filter fun p => decide (p.outputs ≠ [o])).map Prim.score).sum) *
      weight (colOf o (primsIn 2 v)) h := by
  unfold joint
  rw [score_prims (tuned_tune hr ho).reg (tuned_view hr hv ho)]
  dsimp only
  unfold weight total
  rw [← ENNReal.ofReal_mul (Real.exp_pos _).le, ← Real.exp_add, prims_tuned hr ho]
  congr 2
  induction primsIn 2 v with
  | nil => simp [colOf]
  | cons p l ih =>
    by_cases hp : p.outputs = [o]
    · have h1 : colOf o (p :: l) = p :: colOf o l := by simp [colOf, hp]
      rw [List.map_cons, List.map_cons, List.sum_cons, h1, List.filter_cons_of_neg (by simpa using hp), ih, List.map_cons,
        List.sum_cons]
      unfold retune
      rw [if_pos hp]
      ring
    · have h1 : colOf o (p :: l) = colOf o l := by simp [colOf, hp]
      rw [List.map_cons, List.map_cons, List.sum_cons, h1, List.filter_cons_of_pos (by simpa using hp), ih, List.map_cons,
        List.sum_cons]
      unfold retune
      rw [if_neg hp]
      ring

end Views
end Cgpm2
