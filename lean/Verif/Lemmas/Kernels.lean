import Verif.Lemmas.Sweep
import Verif.Lemmas.Hypers
import Verif.Lemmas.Progress
import Verif.Props.Progress
import Verif.Spec.Kernels

/-!
# The kernels on hyperparameters succeed (helpers)
-/

namespace Cgpm2.Views
open Spec Cpp

section
variable {Z : List Var} {x : Crosscat}

/-! ## The primitives of a variable -/

theorem refs_of (h : CC Z x) {o : Var} (ho : o ∈ (cgpmI 3).outputs (whole x)) :
    ∃ refs, columnRefs x o = .ok refs ∧ refs.objs = colOf o (primsIn 3 (whole x)) ∧ refs.objs ≠ [] := by
  obtain ⟨r, hr, hf⟩ := (cgpm_walk Z 3 (whole x) h.reg).walk o ho
  have hr : (columnRefs x o).map (Refs.map (Node.product (S := Cgpm 2))) = .ok r := hr
  rcases hc : columnRefs x o with e | refs
  · rw [hc] at hr; cases hr
  rw [hc] at hr
  cases hr
  refine ⟨refs, rfl, hf.objs, ?_⟩
  obtain ⟨p, hp, hpo⟩ := cgpm_covers Z 3 (whole x) h.reg o ho
  have hm : p ∈ colOf o (primsIn 3 (whole x)) := List.mem_filter.2 ⟨hp, by simpa using hpo⟩
  have hobjs : refs.objs = _ := hf.objs
  rw [hobjs]
  exact List.ne_nil_of_mem hm

/-- The primitives of a column. -/
theorem column_refs (h : CC Z x) {o : Var} (ho : o ∈ columns x) :
    ∃ refs k, columnRefs x o = .ok refs ∧ refs.objs ≠ [] ∧ AllOf k refs.objs ∧ ∀ p, OfColumn x o p → p.kind = k := by
  obtain ⟨refs, h1, h2, h3⟩ := refs_of h (h.mem_outputs ho)
  obtain ⟨b, -, -, -, hb⟩ := column_prims h ho
  refine ⟨refs, b.kind, h1, h3, fun q hq => ?_, fun p hp => (hb p hp.1 hp.2).1⟩
  rw [h2] at hq
  obtain ⟨hq1, hq2⟩ := List.mem_filter.1 hq
  exact ⟨cgpm_prims_good Z 3 _ h.reg q hq1, (hb q hq1 (by simpa using hq2)).1⟩

/-- The primitive of a cluster variable. -/
theorem cluster_refs (h : CC Z x) {v : View} (hv : v ∈ x.cgpms) :
    ∃ refs, columnRefs x (((cgpmI 2).outputs v).headD 0) = .ok refs ∧ refs.objs ≠ [] ∧ AllOf .crp refs.objs := by
  obtain ⟨m, p, hf⟩ := flat_of_reg (h.viewReg hv) (h.views v hv)
  have hz : ((cgpmI 2).outputs v).headD 0 = m.indexer := by rw [hf.outputs]; rfl
  rw [hz]
  have hzo : m.indexer ∈ (cgpmI 2).outputs v := by rw [hf.outputs]; simp
  obtain ⟨refs, h1, h2, h3⟩ := refs_of h (o := m.indexer) (List.mem_flatMap.2 ⟨v, hv, hzo⟩)
  refine ⟨refs, h1, h3, fun q hq => ⟨?_, ?_⟩⟩
  · rw [h2] at hq
    exact cgpm_prims_good Z 3 _ h.reg q (List.mem_filter.1 hq).1
  · obtain ⟨c, i, r', hi, ho, hw, rfl⟩ := productWalk_ok h1
    have hc := List.mem_of_getElem? hi
    have : c = v := h.eq_view hc hv ho hzo
    subst this
    rw [hf.eq] at hw
    have hw : (Walk.rowMix (Walk.flexArray (cgpmsByOutput 1)) m m.indexer).map (Refs.map (Node.flexMix (S := Cgpm 1))) =
      .ok r' := hw
    unfold Walk.rowMix at hw
    rw [if_pos (by rw [hf.out]; simp)] at hw
    cases hw
    have hq : q ∈ (primWalk m.rowDivide m.indexer).objs := hq
    unfold primWalk at hq
    rw [if_pos hf.out] at hq
    rw [List.mem_singleton.1 hq]
    exact hf.kind

/-! ## One column -/

theorem transitionColumn_total {s : Gibbs} (h : CC Z s.crosscat) {key : Option Var} {o : Var}
    {grids : Dict String (List ℝ)} {refs : Refs Crosscat} {k : Prim.Kind}
    (hg : Dict.get? s.grids key = some grids) (hr : columnRefs s.crosscat o = .ok refs) (hne : refs.objs ≠ [])
    (hall : AllOf k refs.objs) (hk : k ≠ .normalUC) (hl : ∀ n ∈ hyperNames k, LegalGrid grids n) (g : Rng) :
    ∃ (i : Nat) (v v' : View) (g' : Rng), s.crosscat.cgpms[i]? = some v ∧ ViewKin Z v v' ∧
      Gibbs.transitionColumn key o (s, g) = (.ok (), ({ s with crosscat := ⟨s.crosscat.cgpms.set i v'⟩ }, g')) ∧
      Within 8 g g' := by
  obtain ⟨hy, ps, g', e⟩ := transitionHypers_ok hk hall hne hl g
  obtain ⟨c, i, r', hi, ho, hw, rfl⟩ := productWalk_ok hr
  have hre := transitionHypers_retuned grids r'.objs g
  have e : transitionHypers grids (r'.objs, g) = (.ok hy, (ps, g')) := e
  rw [e] at hre
  have hw8 := transitionHypers_within grids (ps := r'.objs) (fun p hp => by
    rw [(hall p hp).2]; exact hk) g
  rw [e] at hw8
  refine ⟨i, c, r'.put ps, g', hi, .of_tune (cgpm_tune Z 2 c (h.viewReg (List.mem_of_getElem? hi)) o ho r' hw ps hre), ?_, hw8⟩
  unfold Gibbs.transitionColumn
  rw [Py.get_bind]
  dsimp only
  rw [Dict.getItem_ok hg, Py.lift_bind]
  have e1 : Gibbs.onCrosscat (onCells o (transitionHypers grids)) (s, g) =
      (.ok hy, ({ s with crosscat := ⟨s.crosscat.cgpms.set i (r'.put ps)⟩ }, g')) := by
    unfold Gibbs.onCrosscat onCells
    dsimp only
    rw [hr]
    dsimp only
    change (match (match transitionHypers grids (r'.objs, g) with
      | (r, (l, g)) => (r, ((⟨s.crosscat.cgpms.set i (r'.put l)⟩ : Crosscat), g))) with
      | (r, (x, g)) => (r, ({ s with crosscat := x }, g))) = _
    rw [e]
  exact (bind_run (s := (s, g)) e1).trans rfl

/-- The rows of a view. -/
def rowsOf : View → List RowId
  | .flexMix m => Dict.keys m.rowidToComponent
  | _ => []

/-- A CrossCat has finitely many rows. -/
theorem rowsAmong_keys (h : CC Z x) : RowsAmong (· ∈ x.cgpms.flatMap rowsOf) x := by
  intro g r o hr
  rw [heldCell_eq (cgpmTLaws Z 3) h.reg] at hr
  by_contra hn
  refine hr (ProdTab.cell_none_iff.2 fun v hv => ?_)
  have hv : v ∈ x.cgpms := hv
  obtain ⟨m, p, hm, -, -⟩ := h.views v hv
  have hnone : Dict.get? m.rowidToComponent r = none := by
    by_contra hc
    obtain ⟨a, ha⟩ := Option.ne_none_iff_exists'.1 hc
    refine hn (List.mem_flatMap.2 ⟨v, hv, ?_⟩)
    rw [hm]
    exact Dict.mem_keys_of_get? ha
  rw [hm]
  change (if o = m.indexer then Dict.get? m.rowidToComponent r
    else (Dict.get? m.rowidToComponent r).bind fun z => _) = none
  rw [hnone]
  exact ite_self _

/-! ## GibbsCrossCats on which the kernels succeed -/

/-- A table with so many rows and columns. -/
structure Sound (x0 : Crosscat) (rows : List RowId) : Prop where
  cc : ∃ Z, CC Z x0
  ready : Ready x0
  collapsed : Collapsed x0
  among : RowsAmong (· ∈ rows) x0

/-- A GibbsCrossCat with the table of `x0` and grids for it. -/
structure Live (x0 : Crosscat) (c : Bool) (s : Gibbs) : Prop where
  kin : Kin x0 s.crosscat
  con : s.constrained = c
  cols : ∀ o ∈ columns x0, ∀ p, OfColumn x0 o p → ∃ grids,
    Dict.get? s.grids (some o) = some grids ∧ ∀ n ∈ hyperNames p.kind, LegalGrid grids n
  crp : ∃ grids, Dict.get? s.grids none = some grids ∧ ∀ n ∈ hyperNames .crp, LegalGrid grids n

variable {x0 : Crosscat} {rows : List RowId} {c : Bool} {s : Gibbs}

theorem Live.at (h : Live x0 c s) {x' : Crosscat} (hk : Kin x0 x') : Live x0 c { s with crosscat := x' } :=
  ⟨hk, h.con, h.cols, h.crp⟩

theorem Live.ready (h0 : Sound x0 rows) (h : Live x0 c s) : Ready s.crosscat where
  missing o ho p hp hk g r := by
    obtain ⟨Z, hc⟩ := h0.cc
    have ho' := h.kin.cols.mem_iff.1 ho
    obtain ⟨b, h1, h2, -⟩ := column_prims hc ho'
    rw [h.kin.cells g r o ho']
    refine h0.ready.missing o ho' b ⟨h1, h2⟩ ?_ g r
    rw [← (h.kin.types hc o ho' b p ⟨h1, h2⟩ hp).1]
    exact hk
  anonymous g v := by
    obtain ⟨Z, hc⟩ := h0.cc
    by_contra hn
    exact h.kin.among hc (R := fun r => r ≠ none) (fun g r v hv hr => hv (by rw [hr]; exact h0.ready.anonymous g v)) g none v hn rfl

theorem Live.smooth (h0 : Sound x0 rows) (h : Live x0 c s) : ∃ Z, Smooth Z s.crosscat := by
  obtain ⟨Z, hc⟩ := h.kin.cc
  exact ⟨Z, smooth_of_ready hc (h.ready h0)⟩

/-- The grids of a column. -/
theorem Live.column (h0 : Sound x0 rows) (h : Live x0 c s) {o : Var} (ho : o ∈ columns x0) :
    ∃ refs k grids, columnRefs s.crosscat o = .ok refs ∧ refs.objs ≠ [] ∧ AllOf k refs.objs ∧ k ≠ .normalUC ∧
      Dict.get? s.grids (some o) = some grids ∧ ∀ n ∈ hyperNames k, LegalGrid grids n := by
  obtain ⟨Z, hc⟩ := h.kin.cc
  obtain ⟨Z0, hc0⟩ := h0.cc
  have ho' := h.kin.cols.mem_iff.2 ho
  obtain ⟨refs, k, h1, h2, h3, h4⟩ := column_refs hc ho'
  obtain ⟨b, b1, b2, -⟩ := column_prims hc0 ho
  obtain ⟨p, p1, p2, -⟩ := column_prims hc ho'
  have hk : k = b.kind := (h4 p ⟨p1, p2⟩).symm.trans (h.kin.types hc0 o ho b p ⟨b1, b2⟩ ⟨p1, p2⟩).1
  obtain ⟨grids, h5, h6⟩ := h.cols o ho b ⟨b1, b2⟩
  exact ⟨refs, k, grids, h1, h2, h3, by rw [hk]; exact h0.collapsed o ho b ⟨b1, b2⟩, h5, by rwa [hk]⟩

/-- The variables of the views. -/
noncomputable def layout (s : Gibbs) : List (List Var) := s.crosscat.cgpms.map (cgpmI 2).outputs

theorem layout_set {i : Nat} {v v' : View} (hi : s.crosscat.cgpms[i]? = some v) (hk : ViewKin Z v v') :
    layout { s with crosscat := ⟨s.crosscat.cgpms.set i v'⟩ } = layout s := by
  unfold layout
  obtain ⟨hlt, hv⟩ := List.getElem?_eq_some_iff.1 hi
  rw [List.map_set, hk.outs]
  refine List.ext_getElem? fun j => ?_
  rw [List.getElem?_set]
  split
  · next h0 => subst h0; simp [hlt, hv]
  · rfl

theorem layout_outputs {s' : Gibbs} (h : layout s' = layout s) :
    (cgpmI 3).outputs (whole s'.crosscat) = (cgpmI 3).outputs (whole s.crosscat) := flatMap_of_map h

/-- The call returns, leaves the variables in their views, and needs at most `n` random numbers. -/
def Goes (x0 : Crosscat) (c : Bool) (n : Nat) (L : List (List Var)) (m : Py (Gibbs × Rng) Unit) : Prop :=
  ∀ s g, Live x0 c s → layout s = L →
    ∃ s' g', m (s, g) = (.ok (), (s', g')) ∧ Live x0 c s' ∧ layout s' = L ∧ Within n g g'

theorem Goes.mono {n k : Nat} {L : List (List Var)} {m : Py (Gibbs × Rng) Unit} (h : Goes x0 c n L m) (hk : n ≤ k) :
    Goes x0 c k L m := fun s g h1 h2 => by
  obtain ⟨s', g', a1, a2, a3, a4⟩ := h s g h1 h2
  exact ⟨s', g', a1, a2, a3, a4.mono hk⟩

theorem Goes.forEach {n : Nat} {L : List (List Var)} {α : Type} {l : List α} {f : α → Py (Gibbs × Rng) Unit}
    (hf : ∀ a ∈ l, Goes x0 c n L (f a)) : Goes x0 c (l.length * n) L (Gibbs.forEach l f) := by
  intro s g hs hc
  suffices ∃ as s' g', Py.mapL f l (s, g) = (.ok as, (s', g')) ∧ Live x0 c s' ∧ layout s' = L ∧
      Within (l.length * n) g g' by
    obtain ⟨as, s', g', h1, h2⟩ := this
    exact ⟨s', g', (bind_run (s := (s, g)) h1).trans rfl, h2⟩
  induction l generalizing s g with
  | nil => exact ⟨[], s, g, rfl, hs, hc, .refl _ g⟩
  | cons a l ih =>
    obtain ⟨s1, g1, h1, h2, h3, h3'⟩ := hf a (by simp) s g hs hc
    obtain ⟨as, s2, g2, h4, h5, h6, h6'⟩ := ih (fun b hb => hf b (by simp [hb])) s1 g1 h2 h3
    refine ⟨() :: as, s2, g2, ?_, h5, h6, (h3'.trans h6').mono (by rw [List.length_cons, Nat.add_mul]; omega)⟩
    rw [Py.mapL]
    exact (bind_run (s := (s, g)) h1).trans ((bind_run (s := (s1, g1)) h4).trans rfl)

/-- The call returns if none of the first integers clashes; what is left of them does not clash either. -/
def Runs (x0 : Crosscat) (c : Bool) (n : Nat) (m : Py (Gibbs × Rng) Unit) : Prop :=
  ∀ K s g, Live x0 c s → NoClashAmong (n + K) g s.crosscat →
    ∃ s' g', m (s, g) = (.ok (), (s', g')) ∧ Live x0 c s' ∧ NoClashAmong K g' s'.crosscat

theorem noClash_later {n K i : Nat} {g g' : Rng} {x x' : Crosscat} (h : NoClashAmong (n + K) g x) (hi : i ≤ n)
    (hg : ∀ m, g' m = g (m + i))
    (ho : ∀ a ∈ (cgpmI 3).outputs (whole x'), a ∈ (cgpmI 3).outputs (whole x) ∨ ∃ m < i, a = drawnInt g m) :
    NoClashAmong K g' x' := by
  have hd : ∀ m, drawnInt g' m = drawnInt g (m + i) := fun m => by unfold drawnInt; rw [hg]
  refine ⟨fun m hm hc => ?_, fun m hm k hk => ?_⟩
  · rw [hd] at hc
    rcases ho _ hc with hc | ⟨k, hk, e⟩
    · exact h.1 _ (by omega) hc
    · exact h.2 (m + i) (by omega) k (by omega) e.symm
  · rw [hd, hd]
    exact h.2 _ (by omega) _ (by omega)

theorem Goes.runs {n : Nat} {m : Py (Gibbs × Rng) Unit} (h : ∀ L, Goes x0 c n L m) : Runs x0 c n m := by
  intro K s g hs hn
  obtain ⟨s', g', h1, h2, h3, i, hi, hg⟩ := h _ s g hs rfl
  refine ⟨s', g', h1, h2, noClash_later hn hi hg fun a ha => .inl ?_⟩
  rwa [layout_outputs h3] at ha

theorem Runs.mono {n k : Nat} {m : Py (Gibbs × Rng) Unit} (h : Runs x0 c n m) (hk : n ≤ k) : Runs x0 c k m :=
  fun K s g hs hn => h K s g hs ⟨fun m hm => hn.1 m (by omega), fun m hm => hn.2 m (by omega)⟩

theorem Runs.mapL {n : Nat} {α : Type} {l : List α} {f : α → Py (Gibbs × Rng) Unit}
    (hf : ∀ a ∈ l, Runs x0 c n (f a)) (K : Nat) (s : Gibbs) (g : Rng) (hs : Live x0 c s)
    (hn : NoClashAmong (l.length * n + K) g s.crosscat) :
    ∃ as s' g', Py.mapL f l (s, g) = (.ok as, (s', g')) ∧ Live x0 c s' ∧ NoClashAmong K g' s'.crosscat := by
  induction l generalizing s g with
  | nil => exact ⟨[], s, g, rfl, hs, by simpa using hn⟩
  | cons a l ih =>
    obtain ⟨s1, g1, h1, h2, h3⟩ := hf a (by simp) (l.length * n + K) s g hs (by
      rw [List.length_cons, Nat.add_mul] at hn
      rwa [show n + (l.length * n + K) = l.length * n + 1 * n + K by omega])
    obtain ⟨as, s2, g2, h4, h5, h6⟩ := ih (fun b hb => hf b (by simp [hb])) s1 g1 h2 h3
    refine ⟨() :: as, s2, g2, ?_, h5, h6⟩
    rw [Py.mapL]
    exact (bind_run (s := (s, g)) h1).trans ((bind_run (s := (s1, g1)) h4).trans rfl)

theorem Runs.forEach {n : Nat} {α : Type} {l : List α} {f : α → Py (Gibbs × Rng) Unit}
    (hf : ∀ a ∈ l, Runs x0 c n (f a)) : Runs x0 c (l.length * n) (Gibbs.forEach l f) := by
  intro K s g hs hn
  obtain ⟨as, s', g', h1, h2⟩ := Runs.mapL hf K s g hs hn
  exact ⟨s', g', (bind_run (s := (s, g)) h1).trans rfl, h2⟩

theorem Runs.inOrder {n : Nat} {l : List (Py (Gibbs × Rng) Unit)} (hl : ∀ m ∈ l, Runs x0 c n m) :
    Runs x0 c (l.length * n) (Spec.inOrder l) := by
  intro K s g hs hn
  induction l generalizing s g with
  | nil => exact ⟨s, g, rfl, hs, by simpa using hn⟩
  | cons m l ih =>
    obtain ⟨s1, g1, h1, h2, h3⟩ := hl m (by simp) (l.length * n + K) s g hs (by
      rw [List.length_cons, Nat.add_mul] at hn
      rwa [show n + (l.length * n + K) = l.length * n + 1 * n + K by omega])
    obtain ⟨s2, g2, h4, h5⟩ := ih (fun m hm => hl m (by simp [hm])) s1 g1 h2 h3
    refine ⟨s2, g2, ?_, h5⟩
    unfold Spec.inOrder
    rw [h1]
    exact h4

theorem Goes.inOrder {n : Nat} {L : List (List Var)} {l : List (Py (Gibbs × Rng) Unit)} (hl : ∀ m ∈ l, Goes x0 c n L m) :
    Goes x0 c (l.length * n) L (Spec.inOrder l) := by
  intro s g hs hc
  induction l generalizing s g with
  | nil => exact ⟨s, g, rfl, hs, hc, .refl _ g⟩
  | cons m l ih =>
    obtain ⟨s1, g1, h1, h2, h3, h3'⟩ := hl m (by simp) s g hs hc
    obtain ⟨s2, g2, h4, h5, h6, h6'⟩ := ih (fun m hm => hl m (by simp [hm])) s1 g1 h2 h3
    refine ⟨s2, g2, ?_, h5, h6, (h3'.trans h6').mono (by rw [List.length_cons, Nat.add_mul]; omega)⟩
    unfold Spec.inOrder
    rw [h1]
    exact h4

/-! ## The kernels -/

theorem column_goes (h0 : Sound x0 rows) {o : Var} (ho : o ∈ columns x0) (L : List (List Var)) :
    Goes x0 c 8 L (Gibbs.transitionColumn (some o) o) := by
  intro s g hs hL
  obtain ⟨Z, hc⟩ := hs.kin.cc
  obtain ⟨refs, k, grids, h1, h2, h3, h4, h5, h6⟩ := hs.column h0 ho
  obtain ⟨i, v, v', g', e1, e2, e3, e4⟩ := transitionColumn_total hc h5 h1 h2 h3 h4 h6 g
  exact ⟨_, g', e3, hs.at (transitionColumn_pres (x0 := x0) (s, g) _ _ hs.kin e3), (layout_set e1 e2).trans hL, e4⟩

theorem cluster_goes {o : Var} {L : List (List Var)} (ho : ∃ l ∈ L, o = l.headD 0) :
    Goes x0 c 8 L (Gibbs.transitionColumn none o) := by
  intro s g hs hL
  obtain ⟨Z, hc⟩ := hs.kin.cc
  obtain ⟨l, hl, rfl⟩ := ho
  rw [← hL] at hl
  obtain ⟨v, hv, rfl⟩ := List.mem_map.1 hl
  obtain ⟨refs, h1, h2, h3⟩ := cluster_refs hc hv
  obtain ⟨grids, h5, h6⟩ := hs.crp
  obtain ⟨i, v, v', g', e1, e2, e3, e4⟩ := transitionColumn_total hc h5 h1 h2 h3 (by simp) h6 g
  exact ⟨_, g', e3, hs.at (transitionColumn_pres (x0 := x0) (s, g) _ _ hs.kin e3), (layout_set e1 e2).trans hL, e4⟩

theorem keys_length (ord : Orders) {l : List Var} {n : Nat} (h : ∀ o ∈ l, o ∈ columns x0)
    (hn : (columns x0).length ≤ n) : (ord.cols l).length ≤ n :=
  (List.subperm_of_subset (ord.cols_nodup l) fun o ho => h o ((ord.cols_mem l o).1 ho)).length_le.trans hn

theorem columnKeys_total {ord : Orders} {l : List Var} (h : ∀ o ∈ l, ∃ refs, columnRefs x o = .ok refs) :
    columnKeys ord x l = .ok (ord.cols l) := by
  unfold columnKeys
  obtain ⟨refs, h1, -⟩ := mapM_total (P := fun _ => True) (f := fun o => columnRefs x o) (l := l)
    fun o ho => by
      obtain ⟨r, hr⟩ := h o ho
      exact ⟨r, hr, trivial⟩
  rw [h1]
  rfl

theorem hypersDistributions_goes (h0 : Sound x0 rows) (ord : Orders) {outputs : Option (List Var)}
    (ho : ∀ o ∈ outputs.getD [], o ∈ columns x0) (L : List (List Var)) :
    Goes x0 c ((columns x0).length * 8) L (Gibbs.transitionHypersDistributions ord outputs) := by
  intro s g hs hL
  have hm := fun o h => orAll_mem hs.kin.cols ho o h
  have hkeys : columnKeys ord s.crosscat (orAll s.crosscat outputs) = .ok (ord.cols (orAll s.crosscat outputs)) :=
    columnKeys_total fun o h => by
      obtain ⟨refs, k, grids, h1, -⟩ := hs.column h0 (hm o h)
      exact ⟨refs, h1⟩
  obtain ⟨s', g', h1, h2, h3, h4⟩ := Goes.forEach (l := ord.cols (orAll s.crosscat outputs))
    (f := fun output => Gibbs.transitionColumn (some output) output)
    (fun o h => column_goes (c := c) h0 (hm o ((ord.cols_mem _ _).1 h)) L) s g hs hL
  refine ⟨s', g', ?_, h2, h3, h4.mono (Nat.mul_le_mul_right _ (keys_length ord hm le_rfl))⟩
  unfold Gibbs.transitionHypersDistributions
  rw [Py.get_bind]
  dsimp only
  rw [hkeys, Py.lift_bind]
  exact h1

theorem views_length (h : CC Z x) : x.cgpms.length ≤ (columns x).length := by
  have : ∀ l : List View, (∀ v ∈ l, viewColumns v ≠ []) → l.length ≤ (l.flatMap viewColumns).length := by
    intro l
    induction l with
    | nil => simp
    | cons v l ih =>
      intro hl
      have h1 := List.length_pos_of_ne_nil (hl v (by simp))
      have h2 := ih fun v hv => hl v (by simp [hv])
      rw [List.flatMap_cons, List.length_append, List.length_cons]
      omega
  exact this _ fun v hv => h.nonempty hv

theorem hypersRowDivide_goes (ord : Orders) {outputs : Option (List Var)}
    (ho : ∀ o ∈ outputs.getD [], o ∈ columns x0) (L : List (List Var)) :
    Goes x0 c ((columns x0).length * 8) L (Gibbs.transitionHypersRowDivide ord outputs) := by
  intro s g hs hL
  obtain ⟨Z, hc⟩ := hs.kin.cc
  obtain ⟨l, h1, h2, h3⟩ := indexes_total hc ord (outputs := outputs) fun o h => hs.kin.cols.mem_iff.2 (ho o h)
  obtain ⟨vs, h4, h5⟩ := mapM_total (P := fun v => v ∈ s.crosscat.cgpms) (f := fun i => item s.crosscat.cgpms i) (l := l)
    fun i hi => by
      have hlt := h2 i hi
      refine ⟨s.crosscat.cgpms[i], ?_, List.getElem_mem hlt⟩
      unfold item
      rw [List.getElem?_eq_getElem hlt]
  have hlen := (mapM_ok_forall h4).length_eq
  have hdiv : rowDivideOutputs ord s.crosscat outputs = .ok (vs.map fun v => ((cgpmI 2).outputs v).headD 0) := by
    unfold rowDivideOutputs
    rw [h1]
    change (l.mapM (fun i => item s.crosscat.cgpms i) >>= _) = _
    rw [h4]
    rfl
  have hmem : ∀ o ∈ vs.map (fun v => ((cgpmI 2).outputs v).headD 0), ∃ l ∈ L, o = l.headD 0 := fun o ho => by
    obtain ⟨v, hv, rfl⟩ := List.mem_map.1 ho
    exact ⟨_, by rw [← hL]; exact List.mem_map.2 ⟨v, h5 v hv, rfl⟩, rfl⟩
  have hkeys : columnKeys ord s.crosscat (vs.map fun v => ((cgpmI 2).outputs v).headD 0) =
      .ok (ord.cols (vs.map fun v => ((cgpmI 2).outputs v).headD 0)) := columnKeys_total fun o ho => by
    obtain ⟨v, hv, rfl⟩ := List.mem_map.1 ho
    obtain ⟨refs, h6, -⟩ := cluster_refs hc (h5 v hv)
    exact ⟨refs, h6⟩
  obtain ⟨s', g', e1, e2, e3, e4⟩ := Goes.forEach (l := ord.cols (vs.map fun v => ((cgpmI 2).outputs v).headD 0))
    (f := fun output => Gibbs.transitionColumn none output)
    (fun o h => cluster_goes (x0 := x0) (c := c) (hmem o ((ord.cols_mem _ _).1 h))) s g hs hL
  have hle : (ord.cols (vs.map fun v => ((cgpmI 2).outputs v).headD 0)).length ≤ (columns x0).length := by
    have h6 := (List.subperm_of_subset (ord.cols_nodup (vs.map fun v => ((cgpmI 2).outputs v).headD 0))
      fun o ho => (ord.cols_mem _ o).1 ho).length_le
    rw [List.length_map] at h6
    have h7 := views_length hc
    have h8 := hs.kin.cols.length_eq
    omega
  refine ⟨s', g', ?_, e2, e3, e4.mono (Nat.mul_le_mul_right _ hle)⟩
  unfold Gibbs.transitionHypersRowDivide
  rw [Py.get_bind]
  dsimp only
  rw [hdiv, Py.lift_bind]
  dsimp only
  rw [hkeys, Py.lift_bind]
  exact e1

theorem rowAssignments_goes (h0 : Sound x0 rows) (ord : Orders) {outputs : Option (List Var)}
    (ho : ∀ o ∈ outputs.getD [], o ∈ columns x0) (rowids : Option (List RowId)) (L : List (List Var)) :
    Goes x0 c ((columns x0).length * (2 * rows.length)) L (Gibbs.transitionRowAssignments ord outputs rowids) := by
  intro s g hs hL
  obtain ⟨Z, hsm⟩ := hs.smooth h0
  obtain ⟨x', g', e1, e2, e3, e4⟩ := rowAssignments_total ord (outputs := outputs) rowids g hsm
    fun o h => hs.kin.cols.mem_iff.2 (ho o h)
  refine ⟨_, g', e1, hs.at (rowAssignments_pres (x0 := x0) (s, g) _ _ hs.kin e1), Eq.trans e3 hL, ?_⟩
  have h7 := views_length hsm.toCC
  rw [hs.kin.cols.length_eq] at h7
  obtain ⟨Z0, hc0⟩ := h0.cc
  obtain ⟨τ, hτ, -⟩ := Kin.exists_types hc0
  exact (e4 rows fun v hv r hp => (hs.kin.fits τ _ hτ h0.among v hv).rows Z r hp).mono (Nat.mul_le_mul_right _ h7)

theorem moveView_runs (h0 : Sound x0 rows) (hf : (columns x0).length ≤ 257) {o : Var} (ho : o ∈ columns x0) :
    Runs x0 c ((columns x0).length * rows.length + rows.length + 2)
      (Gibbs.assign (transitionViewAssignments [o] 1)) := by
  intro K s g hs hn
  obtain ⟨Z, hc⟩ := hs.kin.cc
  obtain ⟨Z0, hc0⟩ := h0.cc
  have ho' := hs.kin.cols.mem_iff.2 ho
  obtain ⟨k, hk, v, hv, hov⟩ := viewIndex_eq hc ho'
  have h7 := views_length hc
  rw [hs.kin.cols.length_eq] at h7
  have hkl := (List.getElem?_eq_some_iff.1 hv).1
  have hd : draws s.crosscat [o] rows 1 + 1 ≤ (columns x0).length * rows.length + rows.length + 2 := by
    unfold draws
    have := Nat.mul_le_mul_right rows.length h7
    simp only [List.length_singleton, Nat.one_mul]
    omega
  obtain ⟨x', x'', g', e, i, hi, hg, hout⟩ := transition_total hc (outs := [o]) (by simp) (by simp) hv
    (by simpa using hov) (by omega) (rows := rows)
    (fun o' ho' r hcell => hs.kin.among hc0 h0.among g r o' (by rwa [heldCell_eq (cgpmTLaws Z 3) hc.reg])) 1 g
    (fun m hm => hn.1 m (by omega))
  have e1 : Gibbs.assign (transitionViewAssignments [o] 1) (s, g) = (.ok (), ({ s with crosscat := x' }, g')) := by
    have e2 : Gibbs.onCrosscat (transitionViewAssignments [o] 1) (s, g) = (.ok x', ({ s with crosscat := x'' }, g')) := by
      unfold Gibbs.onCrosscat
      dsimp only
      rw [e]
    exact (bind_run (s := (s, g)) e2).trans rfl
  exact ⟨_, g', e1, hs.at (moveView_kin hs.kin ho e), noClash_later hn (by omega) hg hout⟩

theorem asked_length (hs : (columns x).Perm (columns x0)) (outputs : Option (List Var)) :
    (orAll x outputs).length = if outputs.getD [] = [] then (columns x0).length else (outputs.getD []).length := by
  have h1 : (distributionOutputs x).length = (columns x0).length := hs.length_eq
  rcases outputs with _ | _ | ⟨o, l⟩
  · exact h1
  · exact h1
  · rfl

theorem transitionViews_runs (h0 : Sound x0 rows) (hf : (columns x0).length ≤ 257) {outputs : Option (List Var)}
    (ho : ∀ o ∈ outputs.getD [], o ∈ columns x0) :
    Runs x0 false (kernelDraws (columns x0).length rows.length outputs) (Gibbs.transitionViews outputs) := by
  intro K s g hs hn
  have hm := fun o h => orAll_mem hs.kin.cols ho o h
  have hr := Runs.forEach (l := orAll s.crosscat outputs) (f := fun output => Gibbs.assign (transitionViewAssignments [output] 1))
    (fun o h => moveView_runs (c := false) h0 hf (hm o h))
  have hle : (orAll s.crosscat outputs).length * ((columns x0).length * rows.length + rows.length + 2) ≤
      kernelDraws (columns x0).length rows.length outputs := by
    unfold kernelDraws
    rw [asked_length hs.kin.cols]
    refine Nat.mul_le_mul (by omega) ?_
    have : ((columns x0).length + 2) * (rows.length + 1) =
      (columns x0).length * rows.length + 2 * rows.length + (columns x0).length + 2 := by ring
    omega
  obtain ⟨s', g', h1, h2⟩ := hr.mono hle K s g hs hn
  refine ⟨s', g', ?_, h2⟩
  unfold Gibbs.transitionViews
  rw [Py.get_bind]
  dsimp only
  rw [Py.assert_bind_pos hs.con]
  exact h1

theorem setView_runs (h0 : Sound x0 rows) {o0 : Var} {o1 : Option Var} (h1 : o0 ∈ columns x0)
    (h2 : ∀ o, o1 = some o → o ∈ columns x0) : Runs x0 false (rows.length + 1) (Gibbs.setView o0 o1) := by
  intro K s g hs hn
  obtain ⟨Z, hc⟩ := hs.kin.cc
  obtain ⟨Z0, hc0⟩ := h0.cc
  have h1' := hs.kin.cols.mem_iff.2 h1
  have hr : ∀ r, (cgpmTab Z 3).cell (whole s.crosscat) r o0 ≠ none → r ∈ rows := fun r hcell =>
    hs.kin.among hc0 h0.among g r o0 (by rwa [heldCell_eq (cgpmTLaws Z 3) hc.reg])
  have key : ∃ x' x'' g', setViewAssignment o0 o1 (s.crosscat, g) = (.ok x', (x'', g')) ∧ NoClashAmong K g' x' := by
    rcases o1 with _ | o1
    · have hz : drawnVar g ∉ (cgpmI 3).outputs (whole s.crosscat) := by
        rw [drawnVar_eq]
        exact hn.1 0 (by omega)
      obtain ⟨x', g', e1, e2, e3⟩ := setSingleton_total hc h1' g hz
      obtain ⟨i, hi, hg⟩ := e2 rows hr
      refine ⟨x', _, g', e1, noClash_later hn (i := i + 1) (by omega) (fun m => ?_) fun a ha => ?_⟩
      · rw [hg]; rfl
      · rcases e3 a ha with ha | ha
        · exact .inl ha
        · exact .inr ⟨0, by omega, by rw [ha, drawnVar_eq]⟩
    · obtain ⟨x', x'', g', e1, e2, e3⟩ := setExisting_total hc h1' (hs.kin.cols.mem_iff.2 (h2 o1 rfl)) g
      obtain ⟨i, hi, hg⟩ := e2 rows hr
      refine ⟨x', x'', g', e1, noClash_later hn (i := i) (by omega) hg fun a ha => .inl (e3 a ha)⟩
  obtain ⟨x', x'', g', e, hn'⟩ := key
  refine ⟨{ s with crosscat := x' }, g', ?_, hs.at (setView_kin hs.kin h1 h2 e), hn'⟩
  have e2 : Gibbs.onCrosscat (setViewAssignment o0 o1) (s, g) = (.ok x', ({ s with crosscat := x'' }, g')) := by
    unfold Gibbs.onCrosscat
    dsimp only
    rw [e]
  unfold Gibbs.setView
  rw [Py.get_bind]
  dsimp only
  rw [Py.assert_bind_pos hs.con]
  exact (bind_run (s := (s, g)) e2).trans rfl

/-! ## The grids -/

theorem grids_total {k : Prim.Kind} {ps : List Prim} (hp : AllOf k ps) (hk : k ≠ .normalUC) (hne : ps ≠ []) :
    ∃ grids, transitionHyperGrids ps 30 = .ok grids ∧ ∀ n ∈ hyperNames k, LegalGrid grids n := by
  unfold transitionHyperGrids
  rw [if_neg (not_not.2 (sameClass_of_allOf fun p h => (hp p h).2))]
  rcases ps with _ | ⟨p, ps⟩
  · exact absurd rfl hne
  · have hpk := (hp p (by simp)).2
    refine ⟨_, rfl, ?_⟩
    rw [← hpk]
    exact legalGrid_own p (by rw [hpk]; exact hk) _ (by omega)

/-- The grids of columns are made anew. -/
theorem gridsDistribution_run (h0 : (∃ Z, CC Z x0) ∧ Collapsed x0) (hk : Kin x0 s.crosscat) (ord : Orders) {outputs : Option (List Var)}
    (ho : ∀ o ∈ outputs.getD [], o ∈ columns x0) (g : Rng) :
    ∃ d, Gibbs.gridsDistribution ord outputs (s, g) = (.ok (), ({ s with grids := d }, g)) ∧
      (∀ key, (∀ o ∈ orAll s.crosscat outputs, key ≠ some o) → Dict.get? d key = Dict.get? s.grids key) ∧
      ∀ o ∈ orAll s.crosscat outputs, ∀ p, OfColumn x0 o p → ∃ grids,
        Dict.get? d (some o) = some grids ∧ ∀ n ∈ hyperNames p.kind, LegalGrid grids n := by
  have hm := fun o h => orAll_mem hk.cols ho o h
  obtain ⟨Z, hc⟩ := hk.cc
  obtain ⟨Z0, hc0⟩ := h0.1
  have hcol : ∀ o ∈ columns x0, ∃ refs, columnRefs s.crosscat o = .ok refs ∧ ∃ grids,
      transitionHyperGrids refs.objs 30 = .ok grids ∧ ∀ p, OfColumn x0 o p → ∀ n ∈ hyperNames p.kind, LegalGrid grids n := by
    intro o ho
    have ho' := hk.cols.mem_iff.2 ho
    obtain ⟨refs, k, h1, h2, h3, h4⟩ := column_refs hc ho'
    obtain ⟨p, p1, p2, -⟩ := column_prims hc ho'
    have hkp : ∀ b, OfColumn x0 o b → k = b.kind := fun b hb =>
      (h4 p ⟨p1, p2⟩).symm.trans (hk.types hc0 o ho b p hb ⟨p1, p2⟩).1
    obtain ⟨b, b1, b2, -⟩ := column_prims hc0 ho
    obtain ⟨grids, h5, h6⟩ := grids_total h3 (by rw [hkp b ⟨b1, b2⟩]; exact h0.2 o ho b ⟨b1, b2⟩) h2
    exact ⟨refs, h1, grids, h5, fun p hp => by rw [← hkp p hp]; exact h6⟩
  have hkeys : columnKeys ord s.crosscat (orAll s.crosscat outputs) = .ok (ord.cols (orAll s.crosscat outputs)) :=
    columnKeys_total fun o h => by
      obtain ⟨refs, h1, -⟩ := hcol o (hm o h)
      exact ⟨refs, h1⟩
  have loop : ∀ (f : Var → Py (Gibbs × Rng) Unit), (∀ o ∈ columns x0, ∀ d0, ∃ grids,
        f o (⟨s.crosscat, s.constrained, d0⟩, g) = (.ok (), (⟨s.crosscat, s.constrained, Dict.set d0 (some o) grids⟩, g)) ∧
        ∀ p, OfColumn x0 o p → ∀ n ∈ hyperNames p.kind, LegalGrid grids n) →
      ∀ (l : List Var), (∀ o ∈ l, o ∈ columns x0) → ∀ d0, ∃ as d,
      Py.mapL f l (⟨s.crosscat, s.constrained, d0⟩, g) = (.ok as, (⟨s.crosscat, s.constrained, d⟩, g)) ∧
      (∀ key, (∀ o ∈ l, key ≠ some o) → Dict.get? d key = Dict.get? d0 key) ∧
      ∀ o ∈ l, ∀ p, OfColumn x0 o p → ∃ grids,
        Dict.get? d (some o) = some grids ∧ ∀ n ∈ hyperNames p.kind, LegalGrid grids n := by
    intro f hf l
    induction l with
    | nil => exact fun _ d0 => ⟨[], d0, rfl, fun _ _ => rfl, by simp⟩
    | cons o l ih =>
      intro hl d0
      obtain ⟨grids, h2, h3⟩ := hf o (hl o (by simp)) d0
      obtain ⟨as, d, e1, e2, e3⟩ := ih (fun o ho => hl o (by simp [ho])) (Dict.set d0 (some o) grids)
      refine ⟨() :: as, d, ?_, fun key hkey => ?_, fun a ha p hp => ?_⟩
      · rw [Py.mapL]
        exact (bind_run (s := (_, g)) h2).trans ((bind_run (s := (_, g)) e1).trans rfl)
      · rw [e2 key fun o ho => hkey o (by simp [ho]), Dict.get?_set, if_neg]
        exact fun hc => hkey o (by simp) (by first | exact hc | exact hc.symm)
      · by_cases hal : a ∈ l
        · exact e3 a hal p hp
        · rcases List.mem_cons.1 ha with rfl | ha
          · refine ⟨grids, ?_, h3 p hp⟩
            rw [e2 (some a) fun b hb hc => hal (by cases hc; exact hb), Dict.get?_set, if_pos rfl]
          · exact absurd ha hal
  have hf : ∀ o ∈ columns x0, ∀ d0, ∃ grids, (do
        let (s, _) ← Py.get
        let refs ← Py.lift (columnRefs s.crosscat o)
        let grids ← Py.lift (transitionHyperGrids refs.objs 30)
        fun st => (.ok (), ({ st.1 with grids := Dict.set st.1.grids (some o) grids }, st.2)) : Py (Gibbs × Rng) Unit)
        (⟨s.crosscat, s.constrained, d0⟩, g) = (.ok (), (⟨s.crosscat, s.constrained, Dict.set d0 (some o) grids⟩, g)) ∧
        ∀ p, OfColumn x0 o p → ∀ n ∈ hyperNames p.kind, LegalGrid grids n := fun o ho d0 => by
    obtain ⟨refs, h1, grids, h2, h3⟩ := hcol o ho
    refine ⟨grids, ?_, h3⟩
    rw [Py.get_bind]
    dsimp only
    rw [h1, Py.lift_bind]
    dsimp only
    rw [h2]
    rfl
  obtain ⟨as, d, e1, e2, e3⟩ := loop _ hf (ord.cols (orAll s.crosscat outputs))
    (fun o h => hm o ((ord.cols_mem _ _).1 h)) s.grids
  refine ⟨d, ?_, fun key hkey => e2 key fun o ho => hkey o ((ord.cols_mem _ _).1 ho),
    fun o ho => e3 o ((ord.cols_mem _ _).2 ho)⟩
  unfold Gibbs.gridsDistribution
  rw [Py.get_bind]
  dsimp only
  rw [hkeys, Py.lift_bind]
  exact (bind_run (s := (s, g)) e1).trans rfl

theorem gridsDistribution_goes (h0 : Sound x0 rows) (ord : Orders) {outputs : Option (List Var)}
    (ho : ∀ o ∈ outputs.getD [], o ∈ columns x0) (L : List (List Var)) :
    Goes x0 c 0 L (Gibbs.gridsDistribution ord outputs) := by
  intro s g hs hL
  obtain ⟨d, h1, h2, h3⟩ := gridsDistribution_run ⟨h0.cc, h0.collapsed⟩ hs.kin ord ho g
  refine ⟨_, g, h1, ⟨hs.kin, hs.con, fun o ho p hp => ?_, ?_⟩, hL, .refl _ g⟩
  · by_cases hm : o ∈ orAll s.crosscat outputs
    · exact h3 o hm p hp
    · obtain ⟨grids, h5, h6⟩ := hs.cols o ho p hp
      exact ⟨grids, by rw [← h5]; exact h2 _ fun b hb hc => hm (by cases hc; exact hb), h6⟩
  · obtain ⟨grids, h5, h6⟩ := hs.crp
    exact ⟨grids, by rw [← h5]; exact h2 _ (by simp), h6⟩

theorem gridsRowDivide_run (hc : CC Z s.crosscat) (hne : columns s.crosscat ≠ []) (g : Rng) :
    ∃ grids, Gibbs.gridsRowDivide (s, g) = (.ok (), ({ s with grids := Dict.set s.grids none grids }, g)) ∧
      ∀ n ∈ hyperNames .crp, LegalGrid grids n := by
  have hlen : 0 < s.crosscat.cgpms.length := by
    rcases hl : s.crosscat.cgpms with _ | ⟨v, l⟩
    · exact absurd (by unfold columns; rw [hl]; rfl) hne
    · simp
  obtain ⟨v, hv⟩ : ∃ v, s.crosscat.cgpms[0]? = some v := ⟨_, List.getElem?_eq_getElem hlen⟩
  obtain ⟨m, p, hm, hk, hb⟩ := hc.views v (List.mem_of_getElem? hv)
  have hi : item s.crosscat.cgpms 0 = .ok v := by unfold item; rw [hv]
  have hgood : m.rowDivide.Good := by
    refine cgpm_prims_good Z 2 _ (hc.viewReg (List.mem_of_getElem? hv)) _ ?_
    rw [hm]
    exact List.mem_cons_self
  obtain ⟨grids, h5, h6⟩ := grids_total (k := .crp) (ps := [m.rowDivide])
    (fun p hp => by rw [List.mem_singleton.1 hp]; exact ⟨hgood, hk⟩) (by simp) (by simp)
  refine ⟨grids, ?_, h6⟩
  unfold Gibbs.gridsRowDivide
  rw [Py.get_bind]
  dsimp only
  rw [hi, Py.lift_bind]
  dsimp only
  rw [hm]
  change (Py.lift (transitionHyperGrids [m.rowDivide] 30) >>= _) (s, g) = _
  rw [h5]
  rfl

theorem gridsRowDivide_goes (hne : columns x0 ≠ []) (L : List (List Var)) :
    Goes x0 c 0 L Gibbs.gridsRowDivide := by
  intro s g hs hL
  obtain ⟨Z, hc⟩ := hs.kin.cc
  obtain ⟨grids, h1, h2⟩ := gridsRowDivide_run hc (fun hn => hne (by
    have := hs.kin.cols
    rw [hn] at this
    exact List.nil_perm.1 this)) g
  refine ⟨_, g, h1, ⟨hs.kin, hs.con, fun o ho p hp => ?_, ⟨grids, ?_, h2⟩⟩, hL, .refl _ g⟩
  · obtain ⟨grids', h5, h6⟩ := hs.cols o ho p hp
    refine ⟨grids', ?_, h6⟩
    rw [← h5]
    change Dict.get? (Dict.set s.grids none grids) (some o) = _
    rw [Dict.get?_set, if_neg (by simp)]
  · change Dict.get? (Dict.set s.grids none grids) none = _
    rw [Dict.get?_set, if_pos rfl]

/-- The constructor. -/
theorem init_total (h0 : (∃ Z, CC Z x0) ∧ Collapsed x0) (hne : columns x0 ≠ []) (ord : Orders) (g : Rng) :
    ∃ s, Gibbs.init ord x0 c (.ok ()) g = (.ok s, g) ∧ s.crosscat = x0 ∧ Live x0 c s := by
  obtain ⟨Z, hc⟩ := h0.1
  obtain ⟨grids, h1, h2⟩ := gridsRowDivide_run (s := ⟨x0, c, []⟩) hc hne g
  obtain ⟨d, h3, h4, h5⟩ := gridsDistribution_run (s := ⟨x0, c, Dict.set [] none grids⟩) (outputs := none) h0
    (Kin.refl hc) ord (by simp) g
  refine ⟨⟨x0, c, d⟩, ?_, rfl, Kin.refl hc, rfl, fun o ho p hp => h5 o ho p hp, grids, ?_, h2⟩
  · have hv : validateCrosscat x0 = .ok () := by
      unfold validateCrosscat
      rw [if_pos]
      intro v hv
      obtain ⟨m, p, hm, hk, hb⟩ := hc.views v hv
      rw [hm]
      exact ⟨hk, p, hb⟩
    have hrun : (do Gibbs.gridsRowDivide; Gibbs.gridsDistribution ord none : Py (Gibbs × Rng) Unit) (⟨x0, c, []⟩, g)
        = (.ok (), (⟨x0, c, d⟩, g)) := by
      refine Eq.trans (bind_run (s := (⟨x0, c, []⟩, g)) (f := fun _ => Gibbs.gridsDistribution ord none) h1) ?_
      exact h3
    unfold Gibbs.init
    rw [hv]
    dsimp only
    rw [hrun]
  · have h6 := h4 none (by simp)
    dsimp only at h6
    change Dict.get? d none = _
    rw [h6, Dict.get?_set, if_pos rfl]

/-! ## Sequences of calls -/

theorem kernelDraws_ge (cols rows : Nat) (outputs : Option (List Var)) :
    8 * ((cols + 2) * (rows + 1)) ≤ kernelDraws cols rows outputs :=
  Nat.mul_le_mul_right _ (by omega)

theorem eight_le (C R : Nat) : C * 8 ≤ 8 * ((C + 2) * (R + 1)) := by
  have : (C + 2) * (R + 1) = C * R + C + 2 * R + 2 := by ring
  omega

theorem two_le (C R : Nat) : C * (2 * R) ≤ 8 * ((C + 2) * (R + 1)) := by
  have h1 : (C + 2) * (R + 1) = C * R + C + 2 * R + 2 := by ring
  have h2 : C * (2 * R) = 2 * (C * R) := by ring
  omega

/-- The kernels that leave columns in their views. -/
theorem kernel_goes (h0 : Sound x0 rows) (ord : Orders) {outputs : Option (List Var)} {rowids : Option (List RowId)}
    (ho : ∀ o ∈ outputs.getD [], o ∈ columns x0) {k : String}
    (hk : k ∈ ["hypers_distributions", "hypers_row_divide", "hypers_column_divide", "row_assignments"]) :
    ∃ f, Dict.getItem (Gibbs.kernelLookup ord outputs rowids) k = .ok f ∧
      ∀ L, Goes x0 c (8 * (((columns x0).length + 2) * (rows.length + 1))) L f := by
  simp only [List.mem_cons, List.not_mem_nil, or_false] at hk
  rcases hk with rfl | rfl | rfl | rfl
  · exact ⟨_, rfl, fun L => (hypersDistributions_goes h0 ord ho L).mono (eight_le _ _)⟩
  · exact ⟨_, rfl, fun L => (hypersRowDivide_goes ord ho L).mono (eight_le _ _)⟩
  · exact ⟨_, rfl, fun L s g hs hL => ⟨s, g, rfl, hs, hL, .refl _ g⟩⟩
  · exact ⟨_, rfl, fun L => (rowAssignments_goes h0 ord ho rowids L).mono (two_le _ _)⟩

theorem kernel_runs (h0 : Sound x0 rows) (hf : (columns x0).length ≤ 257) (ord : Orders)
    {outputs : Option (List Var)} {rowids : Option (List RowId)}
    (ho : ∀ o ∈ outputs.getD [], o ∈ columns x0) {k : String}
    (hk : k ∈ ["hypers_distributions", "hypers_row_divide", "hypers_column_divide", "row_assignments",
      "view_assignments"]) :
    ∃ f, Dict.getItem (Gibbs.kernelLookup ord outputs rowids) k = .ok f ∧
      Runs x0 false (kernelDraws (columns x0).length rows.length outputs) f := by
  by_cases hv : k = "view_assignments"
  · subst hv
    exact ⟨_, rfl, transitionViews_runs h0 hf ho⟩
  · obtain ⟨f, h1, h2⟩ := kernel_goes (c := false) (rowids := rowids) h0 ord ho (k := k) (by
      simp only [List.mem_cons, List.not_mem_nil, or_false] at hk ⊢
      tauto)
    exact ⟨f, h1, (Goes.runs h2).mono (kernelDraws_ge _ _ _)⟩

theorem sweeps_length {α : Type} (n : Nat) (l : List α) : (sweeps n l).length = n * l.length := by
  unfold sweeps
  simp

theorem mem_sweeps {α : Type} {n : Nat} {l : List α} {a : α} (h : a ∈ sweeps n l) : a ∈ l := by
  unfold sweeps at h
  obtain ⟨l', h1, h2⟩ := List.mem_flatten.1 h
  rwa [(List.mem_replicate.1 h1).2] at h2

/-- `transition` runs its kernels one after the other. -/
theorem transition_ends (ord : Orders) {N : Option Int} (hN : ∀ n, N = some n → 1 ≤ n) {kernels : Option (List String)}
    {outputs : Option (List Var)} {rowids : Option (List RowId)} {funcs : List (Py (Gibbs × Rng) Unit)}
    (hf : (kernels.getD ord.kernels).mapM (Dict.getItem (Gibbs.kernelLookup ord outputs rowids)) = .ok funcs)
    {w : Progress.World (Gibbs × Rng)} {st : Gibbs × Rng}
    (h : Spec.inOrder (sweeps (N.getD 1).toNat funcs) w.state = (.ok (), st)) :
    ∃ w', Gibbs.Transition ord N none kernels outputs rowids w (.ok (), w') ∧ w'.state = st := by
  have key : ∃ r, Progress.TransitionGeneric funcs N none w r ∧
      (r.1, r.2.state) = Spec.inOrder (sweeps (N.getD 1).toNat funcs) w.state := by
    rcases N with _ | n
    · obtain ⟨r, h1, -, h3⟩ := Props.C47_default funcs w
      refine ⟨r, h1, h3.trans ?_⟩
      simp [sweeps]
    · have hn := hN n rfl
      obtain ⟨m, rfl⟩ : ∃ m : Nat, n = m := ⟨n.toNat, (Int.toNat_of_nonneg (by omega)).symm⟩
      obtain ⟨r, h1, -, h3⟩ := Props.C47_sweeps funcs m (by omega) w
      exact ⟨r, h1, h3⟩
  obtain ⟨⟨r, w'⟩, h1, h2⟩ := key
  rw [h] at h2
  simp only [Prod.mk.injEq] at h2
  obtain ⟨rfl, h3⟩ := h2
  refine ⟨w', ?_, h3⟩
  unfold Gibbs.Transition
  rw [hf]
  exact h1

theorem lookup_total {P : Py (Gibbs × Rng) Unit → Prop} {ord : Orders} {outputs : Option (List Var)}
    {rowids : Option (List RowId)} {l : List String}
    (h : ∀ k ∈ l, ∃ f, Dict.getItem (Gibbs.kernelLookup ord outputs rowids) k = .ok f ∧ P f) :
    ∃ funcs, l.mapM (Dict.getItem (Gibbs.kernelLookup ord outputs rowids)) = .ok funcs ∧
      funcs.length = l.length ∧ ∀ f ∈ funcs, P f := by
  obtain ⟨funcs, h1, h2⟩ := mapM_total (P := P) h
  exact ⟨funcs, h1, (mapM_ok_forall h1).length_eq.symm, h2⟩

theorem call_ends {m : Py (Gibbs × Rng) Unit} {w : Progress.World (Gibbs × Rng)} {st : Gibbs × Rng}
    (h : m w.state = (.ok (), st)) : Progress.World.call m w = (.ok (), { w with state := st }) := by
  unfold Progress.World.call
  rw [h]

/-- A call that leaves columns in their views returns. -/
theorem step_goes (h0 : Sound x0 rows) (hne : columns x0 ≠ []) (ord : Orders) {t : Step}
    (ht : t.Ordinary (columns x0)) (hs : t.Stays) {w : Progress.World (Gibbs × Rng)} (hw : Live x0 c w.state.1) :
    ∃ w', t.Ends ord w (.ok (), w') ∧ Live x0 c w'.state.1 := by
  have call : ∀ {n : Nat} {m : Py (Gibbs × Rng) Unit}, (∀ L, Goes x0 c n L m) →
      ∃ w', Progress.World.call m w = (.ok (), w') ∧ Live x0 c w'.state.1 := fun hm => by
    obtain ⟨s', g', h1, h2, -⟩ := hm _ w.state.1 w.state.2 hw rfl
    exact ⟨_, call_ends h1, h2⟩
  cases t with
  | transition N S kernels outputs rowids =>
    obtain ⟨hN, rfl, hk, ho⟩ := ht
    obtain ⟨l, rfl, hl⟩ := hs
    obtain ⟨funcs, h1, -, h3⟩ := lookup_total (P := fun f => ∀ L,
      Goes x0 c (8 * (((columns x0).length + 2) * (rows.length + 1))) L f) (ord := ord) (rowids := rowids) (l := l)
      fun k hkl => kernel_goes h0 ord ho (by
        have := hk k hkl
        simp only [List.mem_cons, List.not_mem_nil, or_false] at this ⊢
        rcases this with h | h | h | h | rfl
        · exact .inl h
        · exact .inr (.inl h)
        · exact .inr (.inr (.inl h))
        · exact .inr (.inr (.inr h))
        · exact absurd hkl hl)
    obtain ⟨s', g', e1, e2, -⟩ := Goes.inOrder (L := layout w.state.1) (l := sweeps (N.getD 1).toNat funcs)
      (fun m hm => h3 m (mem_sweeps hm) _) w.state.1 w.state.2 hw rfl
    obtain ⟨w', e3, e4⟩ := transition_ends ord hN (kernels := some l) h1 e1
    exact ⟨w', e3, by rw [e4]; exact e2⟩
  | hypersDistributions => exact call (hypersDistributions_goes h0 ord ht)
  | hypersRowDivide => exact call (hypersRowDivide_goes ord ht)
  | hypersColumnDivide => exact ⟨w, rfl, hw⟩
  | rowAssignments => exact call (rowAssignments_goes h0 ord ht _)
  | viewAssignments => exact hs.elim
  | gridsDistribution => exact call (gridsDistribution_goes h0 ord ht)
  | gridsRowDivide => exact call (gridsRowDivide_goes hne)
  | setHypersDistribution => exact ht.elim
  | setHypersRowDivide => exact ht.elim
  | setRowid => exact ht.elim
  | setView => exact hs.elim
  | rowAssignmentsCpp => exact ht.elim
  | viewAssignmentsCpp => exact ht.elim
  | structureCpp => exact ht.elim

theorem steps_go (h0 : Sound x0 rows) (hne : columns x0 ≠ []) (ord : Orders) {steps : List Step}
    (ht : ∀ t ∈ steps, t.Ordinary (columns x0) ∧ t.Stays) {w : Progress.World (Gibbs × Rng)} (hw : Live x0 c w.state.1) :
    ∃ w', Returns ord steps w w' := by
  induction steps generalizing w with
  | nil => exact ⟨w, .nil _⟩
  | cons t steps ih =>
    obtain ⟨w1, h1, h2⟩ := step_goes h0 hne ord (ht t (by simp)).1 (ht t (by simp)).2 hw
    obtain ⟨w2, h3⟩ := ih (fun t h => ht t (by simp [h])) h2
    exact ⟨w2, .cons h1 h3⟩

/-- A call returns if no integer clashes. -/
theorem step_runs (h0 : Sound x0 rows) (hne : columns x0 ≠ []) (hf : (columns x0).length ≤ 257) (ord : Orders) {t : Step}
    (ht : t.Ordinary (columns x0)) {w : Progress.World (Gibbs × Rng)} (hw : Live x0 false w.state.1) (K : Nat)
    (hn : NoClashAmong (t.draws (columns x0).length rows.length + K) w.state.2 w.state.1.crosscat) :
    ∃ w', t.Ends ord w (.ok (), w') ∧ Live x0 false w'.state.1 ∧ NoClashAmong K w'.state.2 w'.state.1.crosscat := by
  have call : ∀ {m : Py (Gibbs × Rng) Unit}, Runs x0 false (t.draws (columns x0).length rows.length) m →
      ∃ w', Progress.World.call m w = (.ok (), w') ∧ Live x0 false w'.state.1 ∧
        NoClashAmong K w'.state.2 w'.state.1.crosscat := fun hm => by
    obtain ⟨s', g', h1, h2⟩ := hm K w.state.1 w.state.2 hw hn
    exact ⟨_, call_ends h1, h2⟩
  cases t with
  | transition N S kernels outputs rowids =>
    obtain ⟨hN, rfl, hk, ho⟩ := ht
    obtain ⟨funcs, h1, h2, h3⟩ := lookup_total (P := Runs x0 false (kernelDraws (columns x0).length rows.length outputs))
      (ord := ord) (outputs := outputs) (rowids := rowids) (l := kernels.getD ord.kernels)
      fun k hkl => kernel_runs h0 hf ord ho (by
        rcases kernels with _ | l
        · exact ord.kernels_perm.mem_iff.1 hkl
        · exact hk k hkl)
    have hlen : (kernels.getD ord.kernels).length = kernels.elim 5 List.length := by
      rcases kernels with _ | l
      · exact ord.kernels_perm.length_eq
      · rfl
    obtain ⟨s', g', e1, e2⟩ := Runs.inOrder (l := sweeps (N.getD 1).toNat funcs)
      (fun m hm => h3 m (mem_sweeps hm)) K w.state.1 w.state.2 hw (by
        rw [sweeps_length, h2, hlen, Nat.mul_assoc]
        exact hn)
    obtain ⟨w', e3, e4⟩ := transition_ends ord hN h1 e1
    exact ⟨w', e3, by rw [e4]; exact e2⟩
  | hypersDistributions =>
    exact call ((Goes.runs (hypersDistributions_goes h0 ord ht)).mono (eight_le _ _))
  | hypersRowDivide => exact call ((Goes.runs (hypersRowDivide_goes ord ht)).mono (eight_le _ _))
  | hypersColumnDivide =>
    exact call (m := Gibbs.transitionHypersColumnDivide)
      ((Goes.runs (n := 0) fun L s g hs hL => ⟨s, g, rfl, hs, hL, .refl _ g⟩).mono (Nat.zero_le _))
  | rowAssignments => exact call ((Goes.runs (rowAssignments_goes h0 ord ht _)).mono (two_le _ _))
  | viewAssignments => exact call (transitionViews_runs h0 hf ht)
  | gridsDistribution => exact call ((Goes.runs (gridsDistribution_goes h0 ord ht)).mono (Nat.zero_le _))
  | gridsRowDivide => exact call ((Goes.runs (gridsRowDivide_goes hne)).mono (Nat.zero_le _))
  | setHypersDistribution => exact ht.elim
  | setHypersRowDivide => exact ht.elim
  | setRowid => exact ht.elim
  | setView => exact call (setView_runs h0 ht.1 ht.2)
  | rowAssignmentsCpp => exact ht.elim
  | viewAssignmentsCpp => exact ht.elim
  | structureCpp => exact ht.elim

theorem steps_run (h0 : Sound x0 rows) (hne : columns x0 ≠ []) (hf : (columns x0).length ≤ 257) (ord : Orders)
    {steps : List Step} (ht : ∀ t ∈ steps, t.Ordinary (columns x0)) {w : Progress.World (Gibbs × Rng)}
    (hw : Live x0 false w.state.1)
    (hn : NoClashAmong (steps.map (Step.draws (columns x0).length rows.length)).sum w.state.2 w.state.1.crosscat) :
    ∃ w', Returns ord steps w w' := by
  induction steps generalizing w with
  | nil => exact ⟨w, .nil _⟩
  | cons t steps ih =>
    obtain ⟨w1, h1, h2, h3⟩ := step_runs h0 hne hf ord (ht t (by simp)) hw _ (by
      rwa [List.map_cons, List.sum_cons] at hn)
    obtain ⟨w2, h4⟩ := ih (fun t h => ht t (by simp [h])) h2 h3
    exact ⟨w2, .cons h1 h4⟩

end
end Cgpm2.Views
