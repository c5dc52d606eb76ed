import Verif.Lemmas.JointSteps
import Verif.Lemmas.Kernels

/-!
# The grids that `GibbsCrossCat.__init__` makes
-/

namespace Cgpm2.Views
open Spec Cpp

/-- Each grid was made for an object of its column. -/
def Made (x : Crosscat) (s : Gibbs × Rng) : Prop :=
  s.1.crosscat = x ∧ ∀ key grid, Dict.get? s.1.grids key = some grid → ∃ p X, grid = Prim.constructHyperGrids p X 30 ∧
    (match key with
      | none => p.kind = .crp
      | some o => OfColumn x o p)

theorem grids_keys (p : Prim) (hk : p.kind ≠ .normalUC) (X : List ℚ) (n : Nat) :
    Dict.keys (p.constructHyperGrids X n) = hyperNames p.kind := by
  rcases p with p | p | p | p | p | p <;> first
    | rfl
    | exact absurd rfl hk

theorem made_set {x : Crosscat} {s : Gibbs} {g : Rng} (h : Made x (s, g)) {key : Option Var} {grid : Dict String (List ℝ)}
    {p : Prim} {X : List ℚ} (hg : grid = Prim.constructHyperGrids p X 30)
    (hp : match key with | none => p.kind = .crp | some o => OfColumn x o p) :
    Made x ({ s with grids := Dict.set s.grids key grid }, g) := by
  refine ⟨h.1, fun key' grid' he0 => ?_⟩
  have he : Dict.get? (Dict.set s.grids key grid) key' = some grid' := he0
  clear he0
  rw [Dict.get?_set] at he
  by_cases e : key' = key
  · rw [if_pos (by first | exact e | exact e.symm)] at he
    subst e
    injection he with he
    exact ⟨p, X, he.symm.trans hg, hp⟩
  · rw [if_neg (by first | exact e | exact fun h => e h.symm)] at he
    exact h.2 _ _ he

theorem grids_head {ps : List Prim} {grids : Dict String (List ℝ)} (h : transitionHyperGrids ps 30 = .ok grids) :
    ∃ p ∈ ps, ∃ X, grids = Prim.constructHyperGrids p X 30 := by
  unfold transitionHyperGrids at h
  split at h
  · cases h
  · rcases ps with _ | ⟨p, ps⟩
    · cases h
    · cases h
      exact ⟨p, List.mem_cons_self, _, rfl⟩

theorem made_rowDivide {Z : List Var} {x : Crosscat} (hc : CC Z x) : Pres (Made x) Gibbs.gridsRowDivide := by
  rintro ⟨s, g⟩ a s' hs h0
  obtain ⟨st, s1, e1, h1⟩ := run_bind h0
  cases e1
  obtain ⟨v, s2, e2, h2⟩ := run_bind h1
  obtain ⟨e2, rfl⟩ := lift_ok e2
  have hv : v ∈ x.cgpms := by
    rw [← hs.1]
    unfold item at e2
    rcases hi : s.crosscat.cgpms[0]? with _ | u
    · rw [hi] at e2; cases e2
    · rw [hi] at e2; cases e2; exact List.mem_of_getElem? hi
  obtain ⟨m, p, hm, hk, hb⟩ := hc.views v hv
  rw [hm] at h2
  obtain ⟨grids, s3, e3, h3⟩ := run_bind h2
  obtain ⟨e4, rfl⟩ := lift_ok e3
  cases h3
  obtain ⟨q, hq, X, hX⟩ := grids_head e4
  refine made_set hs hX ?_
  rw [List.mem_singleton.1 hq]
  exact hk

theorem made_distribution {Z : List Var} {x : Crosscat} (hc : CC Z x) (ord : Orders) :
    Pres (Made x) (Gibbs.gridsDistribution ord none) := by
  rintro ⟨s, g⟩ a s' hs h0
  obtain ⟨st, s1, e1, h1⟩ := run_bind h0
  cases e1
  obtain ⟨keys, s2, e2, h2⟩ := run_bind h1
  obtain ⟨e2, rfl⟩ := lift_ok e2
  have hkeys : ∀ o ∈ keys, o ∈ columns x := by
    rw [hs.1] at e2
    unfold columnKeys at e2
    rcases hm : (orAll x none).mapM fun output => columnRefs x output with e | l
    · rw [hm] at e2; cases e2
    · rw [hm] at e2
      cases e2
      exact fun o ho => orAll_columns none (by simp) o ((ord.cols_mem _ _).1 ho)
  refine Pres.forEach (fun o ho => ?_) _ _ _ hs h2
  rintro ⟨s, g⟩ a s' hs h0
  obtain ⟨st, s1, e1, h1⟩ := run_bind h0
  cases e1
  obtain ⟨refs, s2, e2, h2⟩ := run_bind h1
  obtain ⟨e2, rfl⟩ := lift_ok e2
  obtain ⟨grids, s3, e3, h3⟩ := run_bind h2
  obtain ⟨e4, rfl⟩ := lift_ok e3
  cases h3
  obtain ⟨q, hq, X, hX⟩ := grids_head e4
  obtain ⟨refs', r1, r2, -⟩ := refs_of hc (hc.mem_outputs (hkeys o ho))
  rw [hs.1, r1] at e2
  cases e2
  rw [r2] at hq
  obtain ⟨hq1, hq2⟩ := List.mem_filter.1 hq
  exact made_set hs hX ⟨hq1, by simpa using hq2⟩

theorem init_made {Z : List Var} {x : Crosscat} (hc : CC Z x) {ord : Orders} {c : Bool} {s : Gibbs} {g g' : Rng}
    (h : Gibbs.init ord x c (.ok ()) g = (.ok s, g')) : Made x (s, g') := by
  unfold Gibbs.init at h
  rcases hv : validateCrosscat x with e | u
  · rw [hv] at h; cases h
  rw [hv] at h
  dsimp only at h
  split at h
  · cases h
  · next e =>
    cases h
    exact (Pres.bind (made_rowDivide hc) fun _ => made_distribution hc ord) _ _ _
      ⟨rfl, fun key grid he => by cases he⟩ e

/-- The objects of a view are its CRP and copies of the components of its base. -/
theorem view_prims {Z : List Var} {v : View} {m : FlexMix (Cgpm 1)} {b : Product (Cgpm 0)} (hr : (cgpmTab Z 2).Reg v) (hf : Flat v m b)
    {p : Prim} (hp : p ∈ primsIn 2 v) : p = m.rowDivide ∨ ∃ a ∈ (show List Prim from b.cgpms), a.shape = p.shape := by
  have sub : ∀ c : Cgpm 1, c ∈ m.array.base :: Dict.values m.array.cgpms → p ∈ primsIn 1 c →
      ∃ a ∈ (show List Prim from b.cgpms), a.shape = p.shape := by
    intro c hc hb
    obtain ⟨hr, q, rfl, hs⟩ := comps_product hf hr hc
    exact shape_prims hs (q := p) hb
  rw [hf.eq] at hp
  rcases List.mem_cons.1 hp with rfl | hp
  · exact .inl rfl
  · rcases List.mem_append.1 hp with hp | hp
    · obtain ⟨c, hc, hp⟩ := List.mem_flatMap.1 hp
      exact .inr (sub c (List.mem_cons_of_mem _ hc) hp)
    · exact .inr (sub _ List.mem_cons_self hp)

theorem init_gridded {Z : List Var} {x : Crosscat} (hc : CC Z x) (hk : Collapsed x) (hne : columns x ≠ []) {ord : Orders} {c : Bool}
    {s : Gibbs} {g g' : Rng} (h : Gibbs.init ord x c (.ok ()) g = (.ok s, g')) : ∀ view ∈ x.cgpms, Gridded s.grids view := by
  have hm := init_made hc h
  obtain ⟨s0, h1, h2, h3⟩ := init_total (c := c) ⟨⟨Z, hc⟩, hk⟩ hne ord g
  rw [h1] at h
  cases h
  intro v hv p hp o ho
  obtain ⟨i, hi⟩ := List.mem_iff_getElem?.1 hv
  obtain ⟨z, l, e1, e2, e3⟩ := outputs_split hc hi
  have hpx : OfColumn x o p := ⟨List.mem_flatMap.2 ⟨v, hv, hp⟩, ho⟩
  have hr := hc.viewReg hv
  obtain ⟨m, b, hf⟩ := flat_of_reg hr (hc.views v hv)
  have hov : o ∈ (cgpmI 2).outputs v := by
    rw [hf.outputs]
    rcases view_prims hr hf hp with rfl | ⟨a, ha, e⟩
    · have := hf.out.symm.trans ho
      cases this
      exact List.mem_cons_self
    · refine List.mem_cons_of_mem _ (List.mem_flatMap.2 ⟨a, ha, ?_⟩)
      change o ∈ a.outputs
      unfold Prim.shape at e
      injection e with e' _ _
      rw [e', ho]
      exact List.mem_singleton_self o
  have hmem : m.rowDivide ∈ primsIn 2 v := by rw [hf.eq]; exact List.mem_cons_self
  have hzm : m.indexer = z := by
    have := hf.outputs.symm.trans e1
    injection this
  by_cases hz : o = z
  · have hkp : p.kind = .crp :=
      (sameType_iff.1 (sameModel_self hr (hc.views v hv) hp hmem (by rw [ho, hf.out, hzm, hz]))).1.trans hf.kind
    obtain ⟨grid, h4, h5⟩ := h3.crp
    obtain ⟨q, X, h6, h7⟩ := hm.2 none grid h4
    refine ⟨by rw [hkp]; simp, grid, ?_, ?_, by rw [hkp]; exact h5⟩
    · unfold gridsAt
      rw [e1, if_pos (by simpa using hz)]
      exact h4
    · rw [hkp, ← (show q.kind = .crp from h7), h6]
      exact grids_keys q (by rw [(show q.kind = .crp from h7)]; simp) _ _
  · have hoc : o ∈ columns x := mem_columns.2 ⟨v, hv, by rw [e2]; rw [e1] at hov; exact (List.mem_cons.1 hov).resolve_left hz⟩
    obtain ⟨grid, h4, h5⟩ := h3.cols o hoc p hpx
    obtain ⟨q, X, h6, h7⟩ := hm.2 (some o) grid h4
    have h7 : OfColumn x o q := h7
    obtain ⟨b, -, -, -, hb⟩ := column_prims hc hoc
    have hpq : p.kind = q.kind := (hb p hpx.1 ho).1.trans (hb q h7.1 h7.2).1.symm
    refine ⟨hk o hoc p hpx, grid, ?_, ?_, h5⟩
    · unfold gridsAt
      rw [e1, if_neg (by simpa using hz)]
      exact h4
    · rw [hpq, h6]
      exact grids_keys q (hk o hoc q h7) _ _

end Cgpm2.Views
