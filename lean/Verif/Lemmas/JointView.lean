import Verif.Lemmas.JointHypers

/-!
# The moves of the state of a view (helpers)
-/

namespace Cgpm2.Views
open Spec Cpp MeasureTheory

variable {μ : Measure Draw} [IsProbabilityMeasure μ] {Z : List Var} {grids : Dict (Option Var) (Dict String (List ℝ))}
  {v0 v u w : View} {o : Var} {h : Dict String ℝ}

theorem SameState.refl' (v : View) : SameState v v := ⟨fun _ _ => Iff.rfl, fun _ => rfl⟩

theorem SameState.symm' (h : SameState u w) : SameState w u := ⟨SamePartition.symm' h.1, fun o => (h.2 o).symm⟩

theorem SameState.trans' (h : SameState u w) (h' : SameState w v) : SameState u v :=
  ⟨SamePartition.trans' h.1 h'.1, fun o => (h.2 o).trans (h'.2 o)⟩

/-- What is assumed of the view whose states are sampled. -/
structure Ground (Z : List Var) (grids : Dict (Option Var) (Dict String (List ℝ))) (v0 : View) : Prop where
  tidy : Tidy Z 2 v0
  isView : IsView v0
  columns : ∀ o ∈ viewColumns v0, o ∉ Z
  known : FullyKnown v0
  gridded : Gridded grids v0

/-- The class and the grids of a column. -/
structure Column (grids : Dict (Option Var) (Dict String (List ℝ))) (v0 : View) (o : Var) (k : Prim.Kind)
    (grid : Dict String (List ℝ)) : Prop where
  mem : o ∈ (cgpmI 2).outputs v0
  kind : k ≠ .normalUC
  found : gridsAt grids v0 o = some grid
  names : Dict.keys grid = hyperNames k
  legal : ∀ n ∈ hyperNames k, LegalGrid grid n
  all : ∀ p ∈ primsIn 2 v0, p.outputs = [o] → p.kind = k
  some : ∃ p ∈ primsIn 2 v0, p.outputs = [o]

theorem Column.full {k : Prim.Kind} {grid : Dict String (List ℝ)} (hc : Column grids v0 o k grid) (hh : h ∈ cellsOf grid) :
    FullHypers k h := by
  refine ⟨fun n hn => ?_, (cells_keys hh).trans hc.names⟩
  obtain ⟨g, hgn, -, hl⟩ := hc.legal n hn
  obtain ⟨x, hx, e⟩ := cells_get hgn hh
  exact ⟨x, e, hl x hx⟩

theorem sameModel_self (hr : (cgpmTab Z 2).Reg v) (hv : IsView v) {p q : Prim} (hp : p ∈ primsIn 2 v) (hq : q ∈ primsIn 2 v)
    (e : p.outputs = q.outputs) : SameType p q := by
  obtain ⟨m, b, hf⟩ := flat_of_reg hr hv
  have h0 := hr
  rw [hf.eq] at h0
  have hm : MixReg _ _ _ _ _ _ _ m := h0
  have key : ∀ p ∈ primsIn 2 v, p = m.rowDivide ∨ ∃ a ∈ (show List Prim from b.cgpms), a.shape = p.shape := by
    intro p hp
    have sub : ∀ c : Cgpm 1, c ∈ m.array.base :: Dict.values m.array.cgpms → p ∈ primsIn 1 c →
        ∃ a ∈ (show List Prim from b.cgpms), a.shape = p.shape := by
      intro c hc hb
      obtain ⟨hr, q, rfl, hs⟩ := comps_product hf hr hc
      exact shape_prims hs (q := p) hb
    rw [hf.eq] at hp
    rcases List.mem_cons.1 hp with rfl | hp
    · exact .inl rfl
    · rcases List.mem_append.1 hp with hp | hp
      · obtain ⟨c, hc, hp⟩ := List.mem_flatMap.1 hp
        exact .inr (sub c (List.mem_cons_of_mem _ hc) hp)
      · exact .inr (sub _ List.mem_cons_self hp)
  have hne : ∀ a ∈ (show List Prim from b.cgpms), a.outputs ≠ m.rowDivide.outputs := by
    intro a ha e
    refine hm.x_out ?_
    change m.indexer ∈ (cgpmI 1).outputs m.array.base
    rw [hf.base]
    refine List.mem_flatMap.2 ⟨a, ha, ?_⟩
    change m.indexer ∈ a.outputs
    rw [e, hf.out]
    simp
  have hsh : ∀ {a p : Prim}, a.shape = p.shape → a.outputs = p.outputs ∧ SameType a p := by
    intro a p e
    unfold Prim.shape at e
    injection e with e1 e2 e3
    exact ⟨e1, sameType_iff.2 ⟨e2, e3⟩⟩
  rcases key p hp with rfl | ⟨a, ha, h1⟩ <;> rcases key q hq with rfl | ⟨a', ha', h2⟩
  · exact sameType_iff.2 ⟨rfl, rfl⟩
  · exact absurd ((hsh h2).1.trans e.symm) (hne a' ha')
  · exact absurd ((hsh h1).1.trans e) (hne a ha)
  · obtain ⟨x, hx⟩ := hf.single a ha
    have hx' : Prim.outputs a' = [x] := ((hsh h2).1.trans e.symm).trans ((hsh h1).1.symm.trans hx)
    have : a = a' := eq_of_output hf.nodup ha ha' hx hx'
    subst this
    exact SameType.trans' (SameType.symm' (hsh h1).2) (hsh h2).2

theorem Ground.column (B : Ground Z grids v0) (ho : o ∈ (cgpmI 2).outputs v0) : ∃ k grid, Column grids v0 o k grid := by
  obtain ⟨p, hp, e⟩ := cgpm_covers Z 2 v0 (tidy_reg B.tidy) o ho
  obtain ⟨h1, grid, h2, h3, h4⟩ := B.gridded p hp o e
  refine ⟨p.kind, grid, ho, h1, h2, h3, h4, fun q hq e' => ?_, p, hp, e⟩
  exact (sameType_iff.1 (sameModel_self (tidy_reg B.tidy) B.isView hq hp (e'.trans e.symm))).1

variable {k : Prim.Kind} {grid : Dict String (List ℝ)}

theorem _root_.Cgpm2.Spec.Variant.kind (hc : Column grids v0 o k grid) (hv : Variant Z grids v0 v) {p : Prim} (hp : p ∈ primsIn 2 v)
    (e : p.outputs = [o]) : p.kind = k := by
  obtain ⟨q, hq, e'⟩ := hc.some
  rw [← hc.all q hq e']
  exact (sameType_iff.1 (hv.types q hq p hp (e'.trans e.symm))).1.symm

theorem _root_.Cgpm2.Spec.Variant.mem (hc : Column grids v0 o k grid) (hv : Variant Z grids v0 v) : o ∈ (cgpmI 2).outputs v := by
  rw [hv.outputs]
  exact hc.mem

/-- All objects of a column report the same hyperparameters. -/
theorem _root_.Cgpm2.Spec.Variant.hypers (hc : Column grids v0 o k grid) (hv : Variant Z grids v0 v) {p : Prim} (hp : p ∈ primsIn 2 v)
    (e : p.outputs = [o]) : hypersAt v o = some p.getHypers := by
  obtain ⟨q, qs, h1, h2, h3⟩ := col_nonempty (tidy_reg hv.tidy) (hv.mem hc)
  rw [hypersAt_eq, h1, List.head?_cons, Option.map_some]
  rw [Prim.sameModel_hypers (by rw [hv.kind hc h2 h3]; exact hc.kind) (hv.shared q h2 p hp (h3.trans e.symm))]

theorem _root_.Cgpm2.Spec.Variant.cell (hc : Column grids v0 o k grid) (hv : Variant Z grids v0 v) :
    ∃ h, hypersAt v o = some h ∧ h ∈ cellsOf grid := by
  obtain ⟨q, qs, h1, h2, h3⟩ := col_nonempty (tidy_reg hv.tidy) (hv.mem hc)
  refine ⟨_, hv.hypers hc h2 h3, mem_cells.2 ?_⟩
  exact (hv.onGrid q h2 o h3 grid hc.found).imp fun a b hab => ⟨hab.1.symm, hab.2⟩

theorem gridsAt_same (e : (cgpmI 2).outputs u = (cgpmI 2).outputs w) (o : Var) : gridsAt grids u o = gridsAt grids w o := by
  unfold gridsAt
  rw [e]

theorem _root_.Cgpm2.Spec.Variant.tuned (hc : Column grids v0 o k grid) (hv : Variant Z grids v0 v) (hh : h ∈ cellsOf grid) :
    Variant Z grids v0 (tuned o h v) := by
  have hr := tidy_reg hv.tidy
  have ho := hv.mem hc
  have t := tuned_tune (h := h) hr ho
  have hfull := hc.full hh
  have hget : ∀ p ∈ primsIn 2 v, p.outputs = [o] → (p.withHypers h).getHypers = h := fun p hp e => by
    have hk := hv.kind hc hp e
    exact withHypers_get (by rw [hk]; exact hc.kind) (by rw [hk]; exact hfull.1) (by rw [hk]; exact hfull.2)
  refine ⟨tuned_tidy hv.tidy ho hc.kind (fun p hp => hv.kind hc hp) hfull, tuned_view hr hv.isView ho, t.outputs.trans hv.outputs,
    fun p hp q hq e => ?_, fun r => (hv.rows r).trans (tuned_partition hr ho r r),
    fun g r x hx => (tuned_cell hr ho g r x).trans (hv.cells g r x hx), fun p hp q hq e => ?_, fun q hq x e gr hgr => ?_⟩
  · have hq' := hq
    rw [prims_tuned hr ho] at hq'
    clear hq
    obtain ⟨q, hq, rfl⟩ := List.mem_map.1 hq'
    rw [retune_outputs] at e
    exact SameType.trans' (hv.types p hp q hq e) (retune_type q)
  · have hp' := hp
    have hq' := hq
    rw [prims_tuned hr ho] at hp' hq'
    clear hp hq
    obtain ⟨p, hp, rfl⟩ := List.mem_map.1 hp'
    obtain ⟨q, hq, rfl⟩ := List.mem_map.1 hq'
    rw [retune_outputs, retune_outputs] at e
    have hpq := hv.shared p hp q hq e
    by_cases ep : p.outputs = [o]
    · refine Prim.sameModel_of ?_ (SameType.trans' (SameType.symm' (retune_type p)) (SameType.trans' hpq.type (retune_type q)))
        (by rw [retune_outputs, retune_outputs]; exact e) ?_
      · rw [← (sameType_iff.1 (retune_type p)).1, hv.kind hc hp ep]
        exact hc.kind
      · unfold retune
        rw [if_pos ep, if_pos (e ▸ ep), hget p hp ep, hget q hq (e ▸ ep)]
    · unfold retune
      rw [if_neg ep, if_neg (by rw [← e]; exact ep)]
      exact hpq
  · have hq' := hq
    rw [prims_tuned hr ho] at hq'
    clear hq
    obtain ⟨q, hq, rfl⟩ := List.mem_map.1 hq'
    rw [retune_outputs] at e
    by_cases ex : x = o
    · subst ex
      unfold retune
      rw [if_pos e, hget q hq e]
      rw [hc.found] at hgr
      cases hgr
      exact (mem_cells.1 hh).imp fun a b hab => ⟨hab.1.symm, hab.2⟩
    · unfold retune
      rw [if_neg (by rw [e]; simpa using ex)]
      exact hv.onGrid q hq x e gr hgr

theorem _root_.Cgpm2.Spec.Variant.hypersAt_tuned (hc : Column grids v0 o k grid) (hv : Variant Z grids v0 v) (hh : h ∈ cellsOf grid) (o' : Var) :
    hypersAt (Views.tuned o h v) o' = if o' = o then some h else hypersAt v o' :=
  Views.hypersAt_tuned (tidy_reg hv.tidy) (hv.mem hc) hc.kind (fun _ hp => hv.kind hc hp) (hc.full hh) o'

/-- Variants with the same hyperparameters have the same contents. -/
theorem _root_.Cgpm2.Spec.Variant.contents (B : Ground Z grids v0) (hu : Variant Z grids v0 u) (hw : Variant Z grids v0 w)
    (e : ∀ o, hypersAt u o = hypersAt w o) : SameContents u w where
  cluster := by rw [hu.outputs, hw.outputs]
  columns := by
    unfold viewColumns
    rw [hu.outputs, hw.outputs]
  hypers p hp q hq e' := by
    obtain ⟨o, ho, ep⟩ := (cgpm_walk Z 2 u (tidy_reg hu.tidy)).sub p hp
    rw [hu.outputs] at ho
    obtain ⟨k, grid, hc⟩ := B.column ho
    obtain ⟨b, hb, eb⟩ := hc.some
    refine Prim.sameModel_of (by rw [hu.kind hc hp ep]; exact hc.kind)
      (SameType.trans' (SameType.symm' (hu.types b hb p hp (eb.trans ep.symm))) (hw.types b hb q hq (eb.trans (ep.symm.trans e')))) e' ?_
    have := e o
    rw [hu.hypers hc hp ep, hw.hypers hc hq (e' ▸ ep)] at this
    exact Option.some.inj this
  cells g r o ho := by
    have : viewColumns u = viewColumns v0 := by
      unfold viewColumns
      rw [hu.outputs]
    rw [this] at ho
    rw [hu.cells g r o ho, hw.cells g r o ho]

theorem _root_.Cgpm2.Spec.Variant.joint (B : Ground Z grids v0) (hu : Variant Z grids v0 u) (hw : Variant Z grids v0 w) (e : SameState u w) :
    joint u = joint w := by
  unfold Spec.joint
  rw [score_same (tidy_reg hu.tidy) (tidy_reg hw.tidy) hu.isView hw.isView (hu.contents B hw e.2) e.1]

theorem _root_.Cgpm2.Spec.Variant.joint_ne (hu : Variant Z grids v0 u) : Spec.joint u ≠ 0 ∧ Spec.joint u ≠ ⊤ := by
  unfold Spec.joint
  rw [score_prims (tidy_reg hu.tidy) hu.isView]
  exact ⟨by rw [Ne, ENNReal.ofReal_eq_zero, not_le]; exact Real.exp_pos _, ENNReal.ofReal_ne_top⟩

theorem _root_.Cgpm2.Spec.Variant.multiplicity (hu : Variant Z grids v0 u) (hw : Variant Z grids v0 w) (e : ∀ o, hypersAt u o = hypersAt w o) :
    multiplicity grids u = multiplicity grids w := by
  unfold Spec.multiplicity
  rw [hu.outputs, hw.outputs]
  congr 1
  refine List.map_congr_left fun o _ => ?_
  rw [e o, gridsAt_same (hu.outputs.trans hw.outputs.symm)]

/-- The weight of the state of a view. -/
noncomputable def viewWeight (grids : Dict (Option Var) (Dict String (List ℝ))) (v : View) : ENNReal :=
  Spec.joint v * (Spec.multiplicity grids v : Nat)

theorem viewWeight_classFn (B : Ground Z grids v0) : ClassFn (Variant Z grids v0) SameState (viewWeight grids) :=
  fun u w hu hw e => by
    unfold viewWeight
    rw [hu.joint B hw e, hu.multiplicity hw e.2]

/-! ## The hyperparameters of a column -/

/-- The hyperparameters of a column. -/
noncomputable def hypersOf (o : Var) (v : View) : Dict String ℝ := (hypersAt v o).getD []

theorem hyper_lens (hc : Column grids v0 o k grid) :
    Lens (Variant Z grids v0) SameState (fun _ h => h ∈ cellsOf grid) Eq (hypersOf o) (fun v h => tuned o h v) := by
  have hag : ∀ v, Variant Z grids v0 v → hypersAt v o = some (hypersOf o v) ∧ hypersOf o v ∈ cellsOf grid := fun v hv => by
    obtain ⟨h, h1, h2⟩ := hv.cell hc
    unfold hypersOf
    rw [h1]
    exact ⟨rfl, h2⟩
  have hpart : ∀ {v h}, Variant Z grids v0 v → SamePartition v (tuned o h v) := fun hv =>
    tuned_partition (tidy_reg hv.tidy) (hv.mem hc)
  refine ⟨fun v hv => (hag v hv).2, fun v h hv hh => hv.tuned hc hh, fun u w hu hw e => ?_, fun u w h h' hu hw e hh hh' e' => ?_,
    fun v h hv hh => ?_, fun v hv => ?_, fun v h h' hv hh hh' => ?_, fun _ _ _ _ _ => Iff.rfl, fun _ _ _ _ _ _ => Iff.rfl,
    fun _ => rfl, fun _ _ => Eq.symm, fun _ _ _ => Eq.trans⟩
  · unfold hypersOf
    rw [e.2 o]
  · subst e'
    refine ⟨SamePartition.trans' (SamePartition.symm' (hpart hu)) (SamePartition.trans' e.1 (hpart hw)), fun o' => ?_⟩
    rw [hu.hypersAt_tuned hc hh, hw.hypersAt_tuned hc hh', e.2]
  · unfold hypersOf
    rw [hv.hypersAt_tuned hc hh, if_pos rfl]
    rfl
  · refine ⟨SamePartition.symm' (hpart hv), fun o' => ?_⟩
    rw [hv.hypersAt_tuned hc (hag v hv).2]
    by_cases e : o' = o
    · rw [if_pos e, e, (hag v hv).1]
    · rw [if_neg e]
  · have hv1 := hv.tuned hc hh
    refine ⟨SamePartition.trans' (SamePartition.symm' (hpart hv1)) (SamePartition.trans' (SamePartition.symm' (hpart hv)) (hpart hv)), fun o' => ?_⟩
    rw [hv1.hypersAt_tuned hc hh', hv.hypersAt_tuned hc hh', hv.hypersAt_tuned hc hh]
    by_cases e : o' = o
    · rw [if_pos e, if_pos e]
    · rw [if_neg e, if_neg e, if_neg e]

theorem _root_.Cgpm2.Spec.Variant.hypersOf (hc : Column grids v0 o k grid) (hv : Variant Z grids v0 v) :
    hypersAt v o = some (hypersOf o v) ∧ Views.hypersOf o v ∈ cellsOf grid := by
  obtain ⟨h, h1, h2⟩ := hv.cell hc
  unfold Views.hypersOf
  rw [h1]
  exact ⟨rfl, h2⟩

/-- The objects of a column have its hyperparameters. -/
theorem _root_.Cgpm2.Spec.Variant.objects (hc : Column grids v0 o k grid) (hv : Variant Z grids v0 v) :
    AllOf k (colOf o (primsIn 2 v)) ∧ (colOf o (primsIn 2 v)).map (Prim.withHypers (Views.hypersOf o v)) = colOf o (primsIn 2 v) := by
  have hr := tidy_reg hv.tidy
  obtain ⟨m, b, hf⟩ := flat_of_reg hr hv.isView
  have hall : AllOf k (colOf o (primsIn 2 v)) := fun p hp => by
    obtain ⟨h1, h2⟩ := List.mem_filter.1 hp
    exact ⟨(prims_cases hr hf h1).1, hv.kind hc h1 (of_decide_eq_true h2)⟩
  refine ⟨hall, (List.map_congr_left (g := fun p => p) fun p hp => ?_).trans (List.map_id' _)⟩
  obtain ⟨h1, h2⟩ := List.mem_filter.1 hp
  have h2 := of_decide_eq_true h2
  have hk := hv.kind hc h1 h2
  obtain ⟨e1, e2⟩ := hv.hypersOf hc
  have e3 := hv.hypers hc h1 h2
  rw [e1] at e3
  have e3 := Option.some.inj e3
  refine Prim.eq_of_hypers (by rw [hk]; exact hc.kind) (Prim.setHypers_same p _) fun n _ => ?_
  have hfull := hc.full e2
  rw [withHypers_get (p := p) (by rw [hk]; exact hc.kind) (by rw [hk]; exact hfull.1) (by rw [hk]; exact hfull.2), e3]

theorem hyper_part (hμ : IsDraw μ) (B : Ground Z grids v0) (hc : Column grids v0 o k grid) :
    PartKernel μ (Variant Z grids v0) SameState (fun _ h => h ∈ cellsOf grid) Eq (hypersOf o) (fun v h => tuned o h v)
      (onColumn (n := 2) o (transitionHypers grid)) fun v => hypersKernel (colOf o (primsIn 2 v)) grid (Dict.keys grid) := by
  classical
  have run : ∀ v, Variant Z grids v0 v → ∀ g a v' g', onColumn (n := 2) o (transitionHypers grid) (v, g) = (.ok a, (v', g')) →
      ∃ ps', transitionHypers grid (colOf o (primsIn 2 v), g) = (.ok a, (ps', g')) ∧ v' = tuned o a v ∧ a ∈ cellsOf grid := by
    intro v hv g a v' g' e
    have hr := tidy_reg hv.tidy
    obtain ⟨r, h1, h2, h3⟩ := tuned_refs hr (hv.mem hc)
    obtain ⟨ho1, ho2⟩ := hv.objects hc
    obtain ⟨e1, e2⟩ := hv.hypersOf hc
    unfold onColumn at e
    dsimp only at e
    rw [h1] at e
    dsimp only at e
    rw [h2.objs] at e
    rcases et : transitionHypers grid (colOf o (primsIn 2 v), g) with ⟨res, ps', g1⟩
    rw [et] at e
    cases e
    obtain ⟨p, ps, hp1, hp2, hp3⟩ := col_nonempty hr (hv.mem hc)
    have ha : a ∈ cellsOf grid := by
      rw [hp1] at et
      refine transitionHypers_cell ?_ et
      have := hv.hypers hc hp2 hp3
      rw [e1] at this
      rw [← Option.some.inj this]
      exact e2
    refine ⟨ps', rfl, ?_, ha⟩
    rw [h3, h2.objs]
    congr 1
    refine hypers_objects (c := Views.hypersOf o v) hc.kind ho1 hc.legal (by rw [hp1]; simp) (g := g) (g' := g1) ?_
    rw [ho2]
    exact et
  refine ⟨fun v hv g a v' g' e => ?_, fun v hv Φ F hΦ _ => ?_, fun _ _ _ _ => classFn_eq _, fun v u hv hu hf c hcc F _ => ?_,
    fun v _ c hcc F F' _ _ e => hypersKernel_only e _ hcc⟩
  · obtain ⟨ps', -, rfl, ha⟩ := run v hv g a v' g' e
    exact hv.tuned hc ha
  · have hr := tidy_reg hv.tidy
    obtain ⟨r, h1, h2, h3⟩ := tuned_refs hr (hv.mem hc)
    obtain ⟨ho1, ho2⟩ := hv.objects hc
    obtain ⟨e1, e2⟩ := hv.hypersOf hc
    obtain ⟨p, ps, hp1, hp2, hp3⟩ := col_nonempty hr (hv.mem hc)
    have := hypers_kernel (μ := μ) hμ hc.kind (by rw [hp1]; simp) ho1 hc.names hc.legal (hc.full e2)
      (Φ := fun h' _ => if h' ∈ cellsOf grid then Φ (Views.tuned o h' v) else ∅) (F := fun h' => if h' ∈ cellsOf grid then F h' else 0)
      fun h' _ => by
        by_cases hh : h' ∈ cellsOf grid
        · rw [if_pos hh, if_pos hh]
          exact hΦ h' hh
        · rw [if_neg hh, if_neg hh]
          simp
    have hends : Ends (onColumn (n := 2) o (transitionHypers grid)) v Φ = {g | ∃ h' ps' g', transitionHypers grid
        ((colOf o (primsIn 2 v)).map (Prim.withHypers (Views.hypersOf o v)), g) = (.ok h', (ps', g')) ∧
          g' ∈ if h' ∈ cellsOf grid then Φ (Views.tuned o h' v) else ∅} := by
      ext g
      unfold Ends
      rw [Set.mem_ofPred_eq, Set.mem_ofPred_eq, ho2]
      constructor
      · rintro ⟨a, v', g', e, hg⟩
        obtain ⟨ps', et, rfl, ha⟩ := run v hv g a v' g' e
        exact ⟨a, ps', g', et, by rw [if_pos ha]; exact hg⟩
      · rintro ⟨a, ps', g', et, hg⟩
        have ha : a ∈ cellsOf grid := by
          by_contra ha
          rw [if_neg ha] at hg
          exact hg
        rw [if_pos ha] at hg
        have e : onColumn (n := 2) o (transitionHypers grid) (v, g) = (.ok a, (r.put ps', g')) := by
          unfold onColumn
          dsimp only
          rw [h1]
          dsimp only
          rw [h2.objs, et]
        obtain ⟨_, _, e', _⟩ := run v hv g a _ g' e
        exact ⟨a, _, g', e, by rw [e']; exact hg⟩
    rw [hends]
    refine ⟨this.1, this.2.trans (hypersKernel_only (fun c hcc => ?_) _ e2)⟩
    rw [if_pos hcc]
  · have hr := tidy_reg hv.tidy
    have hr' := tidy_reg hu.tidy
    have L := hyper_lens (Z := Z) hc
    set A := ENNReal.ofReal (Real.exp (((primsIn 2 v).filter fun p => decide (p.outputs ≠ [o])).map Prim.score).sum) with hA
    set A' := ENNReal.ofReal (Real.exp (((primsIn 2 u).filter fun p => decide (p.outputs ≠ [o])).map Prim.score).sum) with hA'
    have hne : ∀ x : ℝ, ENNReal.ofReal (Real.exp x) ≠ 0 := fun x => by
      rw [Ne, ENNReal.ofReal_eq_zero, not_le]; exact Real.exp_pos _
    refine hypersKernel_scale (t := A⁻¹ * A') (mul_ne_zero (ENNReal.inv_ne_zero.2 ENNReal.ofReal_ne_top) (hne _))
      (ENNReal.mul_ne_top (ENNReal.inv_ne_top.2 (hne _)) ENNReal.ofReal_ne_top) (fun d hd => ?_) (fun _ _ => rfl) _ hcc
    have hsame : SameState (Views.tuned o d u) (Views.tuned o d v) :=
      SameState.trans' (L.congr u _ d d hu (L.good v _ hv hf.1) hf.2 hd hd rfl) (L.put_put v _ d hv hf.1 hd)
    have := (hu.tuned hc hd).joint B (hv.tuned hc hd) hsame
    rw [joint_tuned hr' hu.isView (hu.mem hc), joint_tuned hr hv.isView (hv.mem hc), ← hA, ← hA'] at this
    rw [mul_assoc, this, ← mul_assoc, ENNReal.inv_mul_cancel (hne _) ENNReal.ofReal_ne_top, one_mul]

theorem prod_split {l : List Var} (hn : l.Nodup) (ho : o ∈ l) (f : Var → Nat) :
    (l.map f).prod = f o * ((l.filter fun x => decide (x ≠ o)).map f).prod := by
  induction l with
  | nil => cases ho
  | cons a l ih =>
    rw [List.nodup_cons] at hn
    by_cases e : a = o
    · subst e
      rw [List.filter_cons_of_neg (by simp), List.map_cons, List.prod_cons]
      congr 2
      rw [List.filter_eq_self.2 fun x hx => by simpa using fun e : x = a => hn.1 (e ▸ hx)]
    · rw [List.filter_cons_of_pos (by simpa using e), List.map_cons, List.prod_cons, List.map_cons, List.prod_cons,
        ih hn.2 ((List.mem_cons.1 ho).resolve_left fun h => e h.symm), mul_left_comm]

/-- The kernel of `transition_hypers` on a column of a view. -/
noncomputable def columnKernel (grid : Dict String (List ℝ)) (o : Var) (v : View) (F : View → ENNReal) : ENNReal :=
  hypersKernel (colOf o (primsIn 2 v)) grid (Dict.keys grid) (hypersOf o v) fun h => F (tuned o h v)

theorem hyper_move (hμ : IsDraw μ) (B : Ground Z grids v0) (hc : Column grids v0 o k grid) :
    Move μ (Variant Z grids v0) SameState (viewWeight grids) (onColumn (n := 2) o (transitionHypers grid))
      fun _ => columnKernel grid o := by
  have P := hyper_part hμ B hc
  have L := hyper_lens (Z := Z) hc
  have hcl := fun vs (hvs : Classes (Variant Z grids v0) SameState vs) v (hv : Variant Z grids v0 v) => L.classes hvs hv
  have hm : ∀ vs (hvs : Classes (Variant Z grids v0) SameState vs) v (hv : Variant Z grids v0 v), ∀ c,
      c ∈ partsOf SameState (fun _ h => h ∈ cellsOf grid) (hypersOf o) (fun v h => tuned o h v) vs v ↔ c ∈ cellsOf grid :=
    fun vs hvs v hv c => ⟨fun h => (hcl vs hvs v hv).each c h, fun h => by
      obtain ⟨w, hw, e⟩ := (hcl vs hvs v hv).all c h
      rw [e]
      exact hw⟩
  have hmem := fun vs (hvs : Classes (Variant Z grids v0) SameState vs) v (hv : Variant Z grids v0 v) =>
    (funext fun c => propext (hm vs hvs v hv c) : (· ∈ partsOf SameState (fun _ h => h ∈ cellsOf grid) (hypersOf o)
      (fun v h => tuned o h v) vs v) = (· ∈ cellsOf grid))
  refine ⟨fun vs hvs => P.kernel L hvs, fun vs hvs => P.linear L hvs fun v hv => ?_, fun vs hvs v hv => ?_, fun vs hvs => ?_⟩
  · have := hypersKernel_linear (hcl vs hvs v hv).nodup (hm vs hvs v hv) (colOf o (primsIn 2 v)) (Dict.keys grid)
    rwa [hmem vs hvs v hv] at this
  · have := hypersKernel_stoch (hcl vs hvs v hv).nodup (hm vs hvs v hv) (colOf o (primsIn 2 v)) (Dict.keys grid)
    rw [hmem vs hvs v hv] at this
    exact this _ (hv.hypersOf hc).2
  · have hkeep := P.keeps (π := viewWeight grids) (w := fun v c => gridCount grid c * weight (colOf o (primsIn 2 v)) c)
      (c := fun v => ENNReal.ofReal (Real.exp (((primsIn 2 v).filter fun p => decide (p.outputs ≠ [o])).map Prim.score).sum) *
        ((((cgpmI 2).outputs v).filter fun x => decide (x ≠ o)).map fun x =>
          gridCount ((gridsAt grids v x).getD []) ((hypersAt v x).getD [])).prod) L hvs ?_ ?_
    · exact hkeep
    · intro v hv
      have := keeps_cells (hcl vs hvs v hv).nodup (hm vs hvs v hv) (e := weight (colOf o (primsIn 2 v)))
        (K := hypersKernel (colOf o (primsIn 2 v)) grid (Dict.keys grid)) (by
          have := hypers_keeps (colOf o (primsIn 2 v)) grid (Dict.keys grid)
          rwa [hyperCells_eq] at this)
      rwa [hmem vs hvs v hv] at this
    · intro v hv u hu hf
      have hr := tidy_reg hv.tidy
      have hvt := hv.tuned hc hf.1
      rw [viewWeight_classFn B u _ (hvs.each u hu) hvt hf.2]
      unfold viewWeight
      rw [joint_tuned hr hv.isView (hv.mem hc)]
      have hmult : Spec.multiplicity grids (tuned o (hypersOf o u) v) = gridCount grid (hypersOf o u) *
          ((((cgpmI 2).outputs v).filter fun x => decide (x ≠ o)).map fun x =>
            gridCount ((gridsAt grids v x).getD []) ((hypersAt v x).getD [])).prod := by
        unfold Spec.multiplicity
        have eo : (cgpmI 2).outputs (tuned o (hypersOf o u) v) = (cgpmI 2).outputs v := (tuned_tune hr (hv.mem hc)).outputs
        have nd : ((cgpmI 2).outputs v).Nodup := (cgpmTLaws Z 2).nodup _ hr
        rw [eo, prod_split nd (hv.mem hc)]
        congr 1
        · rw [hv.hypersAt_tuned hc hf.1, if_pos rfl, gridsAt_same (eo.trans hv.outputs), hc.found]
          rfl
        · congr 1
          refine List.map_congr_left fun x hx => ?_
          have hx := of_decide_eq_true (List.mem_filter.1 hx).2
          rw [hv.hypersAt_tuned hc hf.1, if_neg hx, gridsAt_same eo]
      rw [hmult]
      push_cast
      ring

end Cgpm2.Views
