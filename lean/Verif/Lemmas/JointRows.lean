import Verif.Lemmas.JointView
import Verif.Props.Rows
import Verif.Lemmas.Gibbs

/-!
# The moves of the rows of a view, among its states (helpers)
-/

namespace Cgpm2.Views
open Spec Cpp MeasureTheory

variable {μ : Measure Draw} [IsProbabilityMeasure μ] {Z : List Var} {grids : Dict (Option Var) (Dict String (List ℝ))}
  {v0 v u w : View} {o : Var} {l : List RowId}

/-- What a row transition keeps, apart from the contents. -/
def Side (Z : List Var) (v0 u : View) : Prop := Tidy Z 2 u ∧ IsView u ∧ (cgpmI 2).outputs u = (cgpmI 2).outputs v0

theorem side_closed {r : RowId} {g g' : Rng} (h : Side Z v0 u) (ht : transitionRows (cgpmI 1) r (u, g) = (.ok (), (w, g'))) :
    Side Z v0 w := by
  have k := transitionRows_kin (tidy_reg h.1) h.2.1 ht
  exact ⟨(Props.C39_transition_rows h.1 ht).1, isView_of_shape k.shape k.reg h.2.1, k.outs.trans h.2.2⟩

theorem columns_eq (e : (cgpmI 2).outputs u = (cgpmI 2).outputs w) : viewColumns u = viewColumns w := by
  unfold viewColumns
  rw [e]

theorem hypersAt_none (hr : (cgpmTab Z 2).Reg v) (ho : o ∉ (cgpmI 2).outputs v) : hypersAt v o = none := by
  rw [hypersAt_eq]
  have : colOf o (primsIn 2 v) = [] := List.filter_eq_nil_iff.2 fun p hp e => by
    obtain ⟨o', ho', e'⟩ := (cgpm_walk Z 2 v hr).sub p hp
    have := of_decide_eq_true e
    rw [e'] at this
    cases this
    exact ho ho'
  rw [this]
  rfl

/-- Views with the contents of a variant are variants, with the same hyperparameters. -/
theorem fit_variant (B : Ground Z grids v0) (hv : Variant Z grids v0 v) (h : Fit (Side Z v0) Z v u) :
    Variant Z grids v0 u ∧ ∀ o, hypersAt u o = hypersAt v o := by
  obtain ⟨h1, h2, h3⟩ := h.side
  have hcov : ∀ q ∈ primsIn 2 u, ∃ b ∈ primsIn 2 v, b.outputs = q.outputs := fun q hq => by
    obtain ⟨o, ho, e⟩ := (cgpm_walk Z 2 u (tidy_reg h1)).sub q hq
    rw [h3, ← hv.outputs] at ho
    obtain ⟨b, hb, e'⟩ := cgpm_covers Z 2 v (tidy_reg hv.tidy) o ho
    exact ⟨b, hb, e'.trans e.symm⟩
  have hvar : Variant Z grids v0 u := by
    refine ⟨h1, h2, h3, fun p hp q hq e => ?_, fun r => (hv.rows r).trans (h.rows r), fun g r x hx => ?_, fun p hp q hq e => ?_,
      fun q hq x e gr hgr => ?_⟩
    · obtain ⟨b, hb, e'⟩ := hcov q hq
      exact SameType.trans' (hv.types p hp b hb (e.trans e'.symm)) (h.contents.hypers b hb q hq e').type
    · rw [h.contents.cells g r x (by rw [columns_eq hv.outputs]; exact hx), hv.cells g r x hx]
    · obtain ⟨b, hb, e'⟩ := hcov p hp
      exact (h.contents.hypers b hb p hp e').symm.trans (h.contents.hypers b hb q hq (e'.trans e))
    · obtain ⟨b, hb, e'⟩ := hcov q hq
      have hx : x ∈ (cgpmI 2).outputs v0 := by
        obtain ⟨y, hy, ey⟩ := (cgpm_walk Z 2 u (tidy_reg h1)).sub q hq
        rw [e] at ey
        cases ey
        rw [← h3]
        exact hy
      obtain ⟨k, grid, hc⟩ := B.column hx
      rw [← Prim.sameModel_hypers (by rw [hv.kind hc hb (e'.trans e)]; exact hc.kind) (h.contents.hypers b hb q hq e')]
      exact hv.onGrid b hb x (e'.trans e) gr hgr
  refine ⟨hvar, fun o => ?_⟩
  by_cases ho : o ∈ (cgpmI 2).outputs v0
  · obtain ⟨k, grid, hc⟩ := B.column ho
    obtain ⟨q, _, -, hq, eq⟩ := col_nonempty (tidy_reg h1) (hvar.mem hc)
    obtain ⟨b, hb, e'⟩ := hcov q hq
    rw [hvar.hypers hc hq eq, hv.hypers hc hb (e'.trans eq),
      Prim.sameModel_hypers (by rw [hv.kind hc hb (e'.trans eq)]; exact hc.kind) (h.contents.hypers b hb q hq e')]
  · rw [hypersAt_none (tidy_reg h1) (by rw [h3]; exact ho), hypersAt_none (tidy_reg hv.tidy) (by rw [hv.outputs]; exact ho)]

theorem variant_fit (B : Ground Z grids v0) (hv : Variant Z grids v0 v) (hu : Variant Z grids v0 u)
    (e : ∀ o, hypersAt u o = hypersAt v o) : Fit (Side Z v0) Z v u :=
  ⟨⟨hu.tidy, hu.isView, hu.outputs⟩, tidy_reg hu.tidy, hu.isView, hv.contents B hu fun o => (e o).symm,
    fun r => (hv.rows r).symm.trans (hu.rows r)⟩

theorem fit_iff (B : Ground Z grids v0) (hv : Variant Z grids v0 v) :
    Fit (Side Z v0) Z v u ↔ Variant Z grids v0 u ∧ ∀ o, hypersAt u o = hypersAt v o :=
  ⟨fit_variant B hv, fun h => variant_fit B hv h.1 h.2⟩

theorem row_lens (B : Ground Z grids v0) :
    Lens (Variant Z grids v0) SameState (fun v u => Fit (Side Z v0) Z v u) SamePartition id (fun _ u => u) where
  own v hv := variant_fit B hv hv fun _ => rfl
  good v u hv hu := (fit_variant B hv hu).1
  same _ _ _ _ e := e.1
  congr v v' u u' hv hv' e hu hu' e' :=
    ⟨e', fun o => ((fit_variant B hv hu).2 o).trans ((e.2 o).trans ((fit_variant B hv' hu').2 o).symm)⟩
  get_put _ _ _ _ := fun _ _ => Iff.rfl
  put_get v _ := SameState.refl' v
  put_put _ _ u _ _ _ := SameState.refl' u
  dom_put v u w hv hu := by
    obtain ⟨h1, h2⟩ := fit_variant B hv hu
    rw [fit_iff B h1, fit_iff B hv]
    exact and_congr_right fun _ => forall_congr' fun o => by rw [h2 o]
  dom v v' u hv hv' e := by
    rw [fit_iff B hv, fit_iff B hv']
    exact and_congr_right fun _ => forall_congr' fun o => by rw [e.2 o]
  refl _ := fun _ _ => Iff.rfl
  symm _ _ := SamePartition.symm'
  trans _ _ _ := SamePartition.trans'

/-- No value of a Bernoulli or Poisson column is missing in a variant. -/
theorem _root_.Cgpm2.Spec.Variant.known (B : Ground Z grids v0) (hv : Variant Z grids v0 v) : FullyKnown v := by
  have hr := tidy_reg hv.tidy
  have hr0 := tidy_reg B.tidy
  refine ⟨fun p hp hk o ho g r => ?_, fun g x => ?_⟩
  · obtain ⟨x, hx, e⟩ := (cgpm_walk Z 2 v hr).sub p hp
    rw [e, List.mem_singleton] at ho
    subst ho
    have hx0 : o ∈ (cgpmI 2).outputs v0 := hv.outputs ▸ hx
    obtain ⟨k, grid, hc⟩ := B.column hx0
    have hkk := hv.kind hc hp e
    obtain ⟨b, hb, eb⟩ := hc.some
    have hbk := hc.all b hb eb
    have hcol : o ∈ viewColumns v0 := by
      obtain ⟨m, q, hf⟩ := flat_of_reg hr0 B.isView
      unfold viewColumns
      rw [hf.outputs] at hx0 ⊢
      rcases List.mem_cons.1 hx0 with h1 | h1
      · exfalso
        have hd : m.rowDivide ∈ primsIn 2 v0 := by
          rw [hf.eq]
          exact List.mem_cons_self
        have := hc.all _ hd (by rw [hf.out, h1])
        rw [hf.kind] at this
        rw [hkk, ← this] at hk
        rcases hk with hk | hk <;> cases hk
      · exact h1
    rw [hv.cells g r o hcol]
    exact B.known.missing b hb (by rw [hbk, ← hkk]; exact hk) o (by rw [eb]; simp) g r
  · have h0 : ¬ Mates v0 none none := by
      rw [mates_iff hr0]
      rintro ⟨k, hk, -⟩
      have := B.known.anonymous g (((cgpmI 2).outputs v0).headD 0)
      rw [heldCell_eq (cgpmTLaws Z 2) hr0, ← clusterOf_eq Z, hk] at this
      cases this
    have hn : Views.clusterOf v none = none := by
      by_contra hn
      obtain ⟨k, hk⟩ := Option.ne_none_iff_exists'.1 hn
      exact h0 ((hv.rows none).2 ((mates_iff hr none none).2 ⟨k, hk, hk⟩))
    rw [heldCell_eq (cgpmTLaws Z 2) hr]
    exact cell_absent hr hv.isView hn x

theorem row_stage (B : Ground Z grids v0) {vs : List View} (hvs : Classes (Variant Z grids v0) SameState vs)
    (hv : Variant Z grids v0 v) : Stage (Side Z v0) Z v
      (partsOf SameState (fun v u => Fit (Side Z v0) Z v u) id (fun _ u => u) vs v) := by
  have hcl := (row_lens B).classes hvs hv
  exact ⟨tidy_reg hv.tidy, hv.isView, fun o ho => B.columns o (by rw [← columns_eq hv.outputs]; exact ho), hv.known B,
    ⟨hcl.each, hcl.once, hcl.all⟩, fun _ _ _ _ _ hu ht => side_closed hu ht⟩

theorem row_part (hμ : IsDraw μ) (B : Ground Z grids v0) {vs : List View} (hvs : Classes (Variant Z grids v0) SameState vs)
    {rowids : List RowId} (hn : l.Nodup) (hl : ∀ r, r ∈ l ↔ Mates v0 r r ∧ (rowids = [] ∨ r ∈ rowids)) :
    PartKernel μ (Variant Z grids v0) SameState (fun v u => Fit (Side Z v0) Z v u) SamePartition id (fun _ u => u)
      (Gibbs.transitionViewRows rowids) fun v =>
        sweepKernel (partsOf SameState (fun v u => Fit (Side Z v0) Z v u) id (fun _ u => u) vs v) l := by
  have L := row_lens B
  have hl' : ∀ v, Variant Z grids v0 v → ∀ r, r ∈ l ↔ Mates v r r ∧ (rowids = [] ∨ r ∈ rowids) := fun v hv r => by
    rw [hl, hv.rows]
  have K := fun v (hv : Variant Z grids v0 v) => sweep_kernel hμ (row_stage B hvs hv) hn (hl' v hv)
  refine ⟨fun v hv g a v' g' e => ?_, fun v hv Φ F hΦ hF => ?_, fun v hv F hF => ?_, fun v v' hv hv' hf u hu F hF => ?_,
    fun v hv u hu F F' hF hF' e => ?_⟩
  · exact (fit_variant B hv ((K v hv).good v (L.own v hv) g a v' g' e)).1
  · exact (K v hv).law v (L.own v hv) Φ F hΦ hF
  · exact (K v hv).cls F hF
  · rw [L.parts_eq hvs hv hv' hf]
  · have lin := (sweep_linear hμ (row_stage B hvs hv) (l := l) fun r hr => ((hl' v hv r).1 hr).1).1
    rw [lin u hu F hF, lin u hu F' hF']
    congr 1
    exact List.map_congr_left fun w hw => by rw [e w ((L.classes hvs hv).each w hw)]

/-- The kernel of the loop over the rows of a view. -/
noncomputable def rowsKernel (Z : List Var) (v0 : View) (l : List RowId) (vs : List View) (v : View) (F : View → ENNReal) : ENNReal :=
  sweepKernel (partsOf SameState (fun v u => Fit (Side Z v0) Z v u) id (fun _ u => u) vs v) l v F

theorem row_move (hμ : IsDraw μ) (B : Ground Z grids v0) {rowids : List RowId} (hn : l.Nodup)
    (hl : ∀ r, r ∈ l ↔ Mates v0 r r ∧ (rowids = [] ∨ r ∈ rowids)) :
    Move μ (Variant Z grids v0) SameState (viewWeight grids) (Gibbs.transitionViewRows rowids) (rowsKernel Z v0 l) := by
  have L := row_lens B
  have hl' : ∀ v, Variant Z grids v0 v → ∀ r ∈ l, Mates v r r := fun v hv r hr => (hv.rows r).1 ((hl r).1 hr).1
  refine ⟨fun vs hvs => (row_part hμ B hvs hn hl).kernel L hvs, fun vs hvs => (row_part hμ B hvs hn hl).linear L hvs fun v hv =>
    (sweep_linear hμ (row_stage B hvs hv) (hl' v hv)).1, fun vs hvs v hv =>
    (sweep_linear hμ (row_stage B hvs hv) (hl' v hv)).2 v (L.own v hv), fun vs hvs => ?_⟩
  have hkeep := (row_part hμ B hvs hn hl).keeps (π := viewWeight grids) (w := fun _ => Spec.joint)
    (c := fun v => (Spec.multiplicity grids v : Nat)) L hvs ?_ ?_
  · exact hkeep
  · exact fun v hv => sweep_keeps hμ (row_stage B hvs hv) (hl' v hv)
  · intro v hv u hu hf
    have hu' := hvs.each u hu
    unfold viewWeight
    rw [hu'.multiplicity hv (fit_variant B hv hf.1).2, mul_comm]
    rfl

/-! ## What the moves can reach -/

theorem row_reach (hμ : IsDraw μ) (B : Ground Z grids v0) {vs : List View} (hvs : Classes (Variant Z grids v0) SameState vs)
    (hn : l.Nodup) (hl : ∀ r, r ∈ l ↔ Mates v0 r r) (hu : Variant Z grids v0 u) (hw : w ∈ vs)
    (e : ∀ o, hypersAt w o = hypersAt u o) : rowsKernel Z v0 l vs u (ind SameState w) ≠ 0 := by
  have L := row_lens B
  have hw' := hvs.each w hw
  have hl0 : ∀ r, r ∈ l ↔ Mates v0 r r ∧ (([] : List RowId) = [] ∨ r ∈ ([] : List RowId)) := fun r => by simp [hl r]
  have hf : Fibre SameState (fun v u => Fit (Side Z v0) Z v u) id (fun _ u => u) u w :=
    ⟨variant_fit B hu hw' e, SameState.refl' w⟩
  refine (row_part hμ B hvs hn hl0).reach L hvs hu hw' hf ?_
  classical
  refine sweep_reach hμ (row_stage B hvs hu) ?_ hn (fun r => (hl r).trans (hu.rows r)) (L.own u hu)
  exact List.mem_map.2 ⟨w, List.mem_filter.2 ⟨hw, decide_eq_true hf⟩, rfl⟩

theorem hyper_reach (hμ : IsDraw μ) (B : Ground Z grids v0) {vs : List View} (hvs : Classes (Variant Z grids v0) SameState vs)
    {k : Prim.Kind} {grid : Dict String (List ℝ)} (hc : Column grids v0 o k grid)
    (hu : Variant Z grids v0 u) (hw : w ∈ vs) (e : SamePartition w u) (e' : ∀ o', o' ≠ o → hypersAt w o' = hypersAt u o') :
    columnKernel grid o u (ind SameState w) ≠ 0 := by
  have L := hyper_lens (Z := Z) hc
  have hw' := hvs.each w hw
  obtain ⟨h1, h2⟩ := hw'.hypersOf hc
  refine (hyper_part hμ B hc).reach L hvs hu hw' ⟨h2, SamePartition.trans' e (tuned_partition (tidy_reg hu.tidy) (hu.mem hc)), fun o' => ?_⟩
    (hypersKernel_reach _ (by rw [hc.names]; exact hyperNames_nodup k) (hu.hypersOf hc).2 h2)
  rw [hu.hypersAt_tuned hc h2]
  by_cases ho : o' = o
  · rw [if_pos ho, ho, h1]
  · rw [if_neg ho, e' o' ho]

end Cgpm2.Views
