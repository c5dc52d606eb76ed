import Verif.Lemmas.ConcreteSweep

/-!
# C95: Gibbs steps on rows succeed
-/

namespace Cgpm2.Props
open Spec Views

/-- C95: `transition_rows(view, rowid)` returns for every row of every view, whatever the data, the
hyperparameters and the random state, if no value of a Bernoulli or Poisson column is missing and no
row has the id None. -/
theorem C95_step_partial (Z : List Var) (x : Crosscat) (h : Tidy Z 3 (whole x)) (hx : IsCrosscat x)
    (hz : ∀ v ∈ columns x, v ∉ Z) (hr : Ready x) (view : View) (hv : view ∈ x.cgpms) (r : RowId)
    (hrow : HasRow view r) (g : Rng) :
    ∃ view' g', transitionRows (cgpmI 1) r (view, g) = (.ok (), (view', g')) := by
  have hcc := cc_of_tidy h hx hz
  have hs := (smooth_of_ready hcc hr).steady view hv
  obtain ⟨view', g', e, -⟩ := row_step (hcc.viewReg hv) (hx view hv) (hcc.view_plain hv) ((hasRow_iff hcc hv r).1 hrow) hs.anon
    (fun o ho x hx => hs.suits o ho r x hx) g
  exact ⟨view', g', e⟩

/-- C95: so does the kernel `transition_row_assignments(outputs, rowids)` of a GibbsCrossCat, whatever
the order of the views. -/
theorem C95_kernel_partial (Z : List Var) (s : Gibbs) (h : Tidy Z 3 (whole s.crosscat)) (hx : IsCrosscat s.crosscat)
    (hz : ∀ v ∈ columns s.crosscat, v ∉ Z) (hr : Ready s.crosscat) (ord : Orders)
    (outputs : Option (List Var)) (ho : ∀ o ∈ outputs.getD [], o ∈ columns s.crosscat)
    (rowids : Option (List RowId)) (g : Rng) :
    ∃ s', Gibbs.transitionRowAssignments ord outputs rowids (s, g) = (.ok (), s') := by
  obtain ⟨x', g', e, -⟩ := rowAssignments_total ord rowids g (smooth_of_ready (cc_of_tidy h hx hz) hr) ho
  exact ⟨_, e⟩

/-- Two columns and two rows. -/
example : Tidy [5] 3 (whole Concrete.mono) ∧ IsCrosscat Concrete.mono ∧
    (∀ v ∈ columns Concrete.mono, v ∉ [5]) ∧ Ready Concrete.mono ∧
    (∃ view ∈ Concrete.mono.cgpms, HasRow view (some 0) ∧ HasRow view (some 1)) ∧
    ∀ o ∈ (some [(2 : Var)]).getD [], o ∈ columns Concrete.mono :=
  ⟨Concrete.mono_tidy, Concrete.mono_crosscat, Concrete.mono_plain, Concrete.mono_ready,
    ⟨_, List.mem_singleton.2 rfl,
      (hasRow_iff Concrete.mono_cc (List.mem_singleton.2 rfl) _).2 (by change some _ ≠ none; simp),
      (hasRow_iff Concrete.mono_cc (List.mem_singleton.2 rfl) _).2 (by change some _ ≠ none; simp)⟩,
    by simp [Concrete.mono_columns]⟩

theorem ailing {Z : List Var} {x : Crosscat} (h : CC Z x) {view : View} (hv : view ∈ x.cgpms) {r r' : RowId}
    (hrow : HasRow view r') (hne : r' ≠ r) (hn : ¬ HasRow view none) {o : Var} (ho : o ∈ viewColumns view)
    {p : Prim} (hp : OfColumn x o p) (hk : p.kind = .bernoulli ∨ p.kind = .poisson)
    (hm : ∀ g, heldCell (cgpmI 3) (whole x) g r o = some .nan) : Ailing Z view r := by
  have hc := hm (fun _ => ⟨0, 0⟩)
  rw [heldCell_eq (cgpmTLaws Z 3) h.reg, h.cell hv (columns_sub ho)] at hc
  have hoc := mem_columns.2 ⟨view, hv, ho⟩
  refine ⟨h.viewReg hv, h.views view hv, h.view_plain hv, (cgpmTLaws Z 2).present_cell _ _ _ (h.viewReg hv)
    (by rw [hc]; simp), ⟨r', (hasRow_iff h hv r').1 hrow, hne⟩, fun h1 => hn ((hasRow_iff h hv none).2 h1),
    o, ho, hc, ?_⟩
  obtain ⟨m, q, hf⟩ := flat_of_reg (h.viewReg hv) (h.views view hv)
  obtain ⟨b0, -, -, -, hb0⟩ := column_prims h hoc
  have hcols : viewColumns view = q.cgpms.flatMap (cgpmI 0).outputs := by
    unfold viewColumns; rw [hf.outputs]; rfl
  rw [hcols] at ho
  obtain ⟨b, hb, hob⟩ := List.mem_flatMap.1 ho
  have hb' : Prim.outputs b = [o] := by
    obtain ⟨a, ha⟩ := hf.single b hb
    rw [ha, List.mem_singleton] at hob
    rw [hob]; exact ha
  refine ⟨m, q, hf, b, hb, hb', ?_⟩
  rw [(hb0 b (List.mem_flatMap.2 ⟨view, hv, flat_prims hf hb⟩) hb').1, ← (hb0 p hp.1 hp.2).1]
  exact hk

/-- C95 fails for a missing value in a Bernoulli or Poisson column, if the view has another row:
`transition_rows` raises, whatever the CrossCat and the random state, and the row is lost. -/
theorem C95_step_violated (Z : List Var) (x : Crosscat) (h : Tidy Z 3 (whole x)) (hx : IsCrosscat x)
    (hz : ∀ v ∈ columns x, v ∉ Z) (view : View) (hv : view ∈ x.cgpms) (o : Var) (ho : o ∈ viewColumns view)
    (p : Prim) (hp : OfColumn x o p) (hk : p.kind = .bernoulli ∨ p.kind = .poisson) (r r' : RowId)
    (hm : ∀ g, heldCell (cgpmI 3) (whole x) g r o = some .nan) (hrow : HasRow view r') (hne : r' ≠ r)
    (hn : ¬ HasRow view none) (g : Rng) :
    ∃ e view', transitionRows (cgpmI 1) r (view, g) = (.error e, (view', g)) ∧
      HoldsNothing (cgpmI 2) view' r := by
  obtain ⟨e, view', h1, h2, h3⟩ := (ailing (cc_of_tidy h hx hz) hv hrow hne hn ho hp hk hm).fails g
  exact ⟨e, view', h1, (holdsNothing_iff (cgpmTLaws Z 2) h2 r).2 h3⟩

/-- C95: the kernel raises for such a CrossCat, whatever the order of views and the random state. -/
theorem C95_kernel_violated (Z : List Var) (s : Gibbs) (h : Tidy Z 3 (whole s.crosscat)) (hx : IsCrosscat s.crosscat)
    (hz : ∀ v ∈ columns s.crosscat, v ∉ Z) (view : View) (hv : view ∈ s.crosscat.cgpms) (o : Var)
    (ho : o ∈ viewColumns view) (p : Prim) (hp : OfColumn s.crosscat o p)
    (hk : p.kind = .bernoulli ∨ p.kind = .poisson) (r r' : RowId)
    (hm : ∀ g, heldCell (cgpmI 3) (whole s.crosscat) g r o = some .nan) (hrow : HasRow view r') (hne : r' ≠ r)
    (hn : ¬ HasRow view none) (ord : Orders) (g : Rng) :
    ∃ e s', Gibbs.transitionRowAssignments ord none none (s, g) = (.error e, s') := by
  have hcc := cc_of_tidy h hx hz
  rcases hr : Gibbs.transitionRowAssignments ord none none (s, g) with ⟨e | u, s'⟩
  · exact ⟨e, s', rfl⟩
  · exact absurd hr ((ailing hcc hv hrow hne hn ho hp hk hm).kernel hcc hv ord g)

/-- A Bernoulli column with the rows 0 and 1; the value of row 1 is missing. -/
example : Tidy [5] 3 (whole Concrete.tosses) ∧ IsCrosscat Concrete.tosses ∧
    (∀ v ∈ columns Concrete.tosses, v ∉ [5]) ∧ ∃ view ∈ Concrete.tosses.cgpms, 1 ∈ viewColumns view ∧
    (∃ p, OfColumn Concrete.tosses 1 p ∧ p.kind = .bernoulli) ∧
    (∀ g, heldCell (cgpmI 3) (whole Concrete.tosses) g (some 1) 1 = some .nan) ∧ HasRow view (some 0) ∧
    ¬ HasRow view none :=
  ⟨Concrete.tosses_tidy, Concrete.tosses_crosscat, Concrete.tosses_plain, _, List.mem_singleton.2 rfl,
    List.mem_singleton.2 rfl, ⟨_, Concrete.tosses_ofColumn, rfl⟩, fun g => (Concrete.tosses_cell g _ _).trans rfl,
    (hasRow_iff Concrete.tosses_cc (List.mem_singleton.2 rfl) _).2 (by change some _ ≠ none; simp),
    fun hn => (hasRow_iff Concrete.tosses_cc (List.mem_singleton.2 rfl) _).1 hn rfl⟩

end Cgpm2.Props
