import Verif.Lemmas.Venture
import Verif.Lemmas.ConcreteViewLaw

/-!
# C118: the rendered VentureScript program describes the CrossCat
-/

namespace Cgpm2.Props
open Spec Views Venture Table

/-- C118: of a CrossCat with only normal, Poisson and categorical columns, where every row has its
cluster and some cell in every view, and whose columns are the positions of distinct names in the
schema, the program is rendered.  It gives every column, under its name, the position of its view and
one distribution for each cluster of that view, with the hyperparameters of the primitive of that
cluster.  It gives every row one number of a mixture component in every view, the same for two rows just
if they are in one cluster, and the mixture weights are the shares of the rows that have the number. -/
theorem C118_script (Z : List Var) (x : Crosscat) (h : Tidy Z 3 (whole x)) (hx : IsCrosscat x)
    (hpl : ∀ v ∈ columns x, v ∉ Z) (schema : List String) (hs : schema.Nodup)
    (hcols : ∀ o ∈ columns x, 0 ≤ o ∧ o.toNat < schema.length) (g : Rng)
    (hm : ∀ v ∈ x.cgpms, ∀ p ∈ primsIn 2 v, ∀ o ∈ viewColumns v, p.outputs = [o] → HasMaker p)
    (hrow : ∀ v ∈ x.cgpms, ∃ r, heldCluster v g r ≠ none)
    (hcell : ∀ v ∈ x.cgpms, ∀ r, heldCluster v g r ≠ none →
      ∃ o ∈ viewColumns v, heldCell (cgpmI 2) v g r o ≠ none) :
    ∃ s, render x schema = .ok s ∧ Scripted x schema g s :=
  render_ok (cc_of_tidy h hx hpl) hs hcols g hm hrow hcell

example (g : Rng) : ∃ s, render Concrete.ccat ["id", "a", "b", "c"] = .ok s ∧
    Scripted Concrete.ccat ["id", "a", "b", "c"] g s := by
  have held : ∀ v ∈ Concrete.ccat.cgpms, ∀ r, heldCluster v g r ≠ none → r = some 0 ∨ r = some 1 := by
    intro v hv r hr
    have hreg := (cc_of_tidy Concrete.ccat_tidy Concrete.ccat_crosscat Concrete.ccat_plain).viewReg hv
    have hv : v ∈ [(.flexMix Concrete.viewA : Node (Node Prim)), (.flexMix Concrete.viewB : Node (Node Prim))] := hv
    unfold heldCluster at hr
    rw [heldCell_eq (cgpmTLaws [5, 6] 2) hreg] at hr
    rcases List.mem_cons.1 hv with rfl | hv
    · exact (Concrete.get?_two (x := .num 0) (y := .num 1)).1 hr
    · rw [List.mem_singleton.1 hv] at hr
      exact (Concrete.get?_two (x := .num 0) (y := .num 0)).1 hr
  refine C118_script [5, 6] _ Concrete.ccat_tidy Concrete.ccat_crosscat Concrete.ccat_plain _ (by decide) ?_ g ?_ ?_ ?_
  · intro o ho
    have ho : o ∈ [(1 : Var), 2, 3] := ho
    simp only [List.mem_cons, List.not_mem_nil, or_false] at ho
    rcases ho with rfl | rfl | rfl <;> decide
  · intro v hv p hp o ho hpo
    have hv : v ∈ [(.flexMix Concrete.viewA : Node (Node Prim)), (.flexMix Concrete.viewB : Node (Node Prim))] := hv
    rcases List.mem_cons.1 hv with rfl | hv
    · have ho : o ∈ [(1 : Var), 2] := ho
      rw [Concrete.viewA_prims] at hp
      rcases List.mem_cons.1 hp with rfl | hp
      · have hpo : [(5 : Var)] = [o] := hpo
        injection hpo with e
        rw [← e] at ho
        simp at ho
      · simp only [List.mem_cons, List.not_mem_nil, or_false] at hp
        rcases hp with rfl | rfl | rfl | rfl | rfl | rfl <;> exact .inr (.inr rfl)
    · rw [List.mem_singleton.1 hv] at hp ho
      have ho : o ∈ [(3 : Var)] := ho
      rw [Concrete.viewB_prims] at hp
      rcases List.mem_cons.1 hp with rfl | hp
      · have hpo : [(6 : Var)] = [o] := hpo
        injection hpo with e
        rw [← e] at ho
        simp at ho
      · simp only [List.mem_cons, List.not_mem_nil, or_false] at hp
        rcases hp with rfl | rfl <;> exact .inr (.inr rfl)
  · intro v hv
    have hv : v ∈ [(.flexMix Concrete.viewA : Node (Node Prim)), (.flexMix Concrete.viewB : Node (Node Prim))] := hv
    rcases List.mem_cons.1 hv with rfl | hv
    · have e : heldCluster (.flexMix Concrete.viewA : Node (Node Prim)) g (some 0) = some (.num 0) := rfl
      exact ⟨some 0, by rw [e]; simp⟩
    · rw [List.mem_singleton.1 hv]
      have e : heldCluster (.flexMix Concrete.viewB : Node (Node Prim)) g (some 0) = some (.num 0) := rfl
      exact ⟨some 0, by rw [e]; simp⟩
  · intro v hv r hr0
    have hr := held v hv r hr0
    have hv : v ∈ [(.flexMix Concrete.viewA : Node (Node Prim)), (.flexMix Concrete.viewB : Node (Node Prim))] := hv
    rcases List.mem_cons.1 hv with rfl | hv
    · refine ⟨1, by change (1 : Var) ∈ [1, 2]; simp, ?_⟩
      rcases hr with rfl | rfl
      · have e : heldCell (cgpmI 2) (.flexMix Concrete.viewA : Node (Node Prim)) g (some 0) 1 = some (.num 2) := rfl
        rw [e]; simp
      · have e : heldCell (cgpmI 2) (.flexMix Concrete.viewA : Node (Node Prim)) g (some 1) 1 = some (.num 1) := rfl
        rw [e]; simp
    · rw [List.mem_singleton.1 hv]
      refine ⟨3, by change (3 : Var) ∈ [3]; simp, ?_⟩
      rcases hr with rfl | rfl
      · have e : heldCell (cgpmI 2) (.flexMix Concrete.viewB : Node (Node Prim)) g (some 0) 3 = some (.num 1) := rfl
        rw [e]; simp
      · have e : heldCell (cgpmI 2) (.flexMix Concrete.viewB : Node (Node Prim)) g (some 1) 3 = some (.num 0) := rfl
        rw [e]; simp

/-- Before any observation the program is rendered, with one component for each view. -/
example : ∃ s, render Concrete.ccat0 ["id", "a", "b", "c"] = .ok s ∧ s.weights = [[1], [1]] := ⟨_, rfl, rfl⟩

/-- C118 without rows: after the only row of a CrossCat has been taken out, the program is not rendered
(`get_crp_tables_weights` gives a number for the list of tables, src/sample_crosscat.py:462), although
it is rendered before and after the row is observed. -/
theorem C118_emptied_violated (g : Rng) : ∃ (x0 x1 x2 : Crosscat) (row : Dict Var Val),
    Tidy [5, 6] 3 (whole x0) ∧ IsCrosscat x0 ∧
    (cgpmI 3).observe (some 0) row [] (whole x0, g) = (.ok (), (whole x1, g)) ∧
    ((cgpmI 3).unobserve (some 0) (whole x1, g)).1 = .ok (row, []) ∧
    ((cgpmI 3).unobserve (some 0) (whole x1, g)).2 = (whole x2, g) ∧
    (∃ s, render x0 ["id", "a", "b", "c"] = .ok s) ∧ (∃ s, render x1 ["id", "a", "b", "c"] = .ok s) ∧
    render x2 ["id", "a", "b", "c"] = .error .typeError := by
  refine ⟨Concrete.ccat0, Concrete.ccat1, ⟨[(.flexMix ⟨.crp (Crp.init [5] [] [] []),
      { FlexArray.init (.product ⟨[Concrete.catCol 1, Concrete.catCol 2]⟩) 5 with
        cgpms := [(.num 0, .product ⟨[Concrete.catCol 1, Concrete.catCol 2]⟩)] }, []⟩ : Node (Node Prim)),
    (.flexMix ⟨.crp (Crp.init [6] [] [] []),
      { FlexArray.init (.product ⟨[Concrete.catCol 3]⟩) 6 with
        cgpms := [(.num 0, .product ⟨[Concrete.catCol 3]⟩)] }, []⟩ : Node (Node Prim))]⟩,
    Concrete.rowA, Concrete.ccat0_tidy, ?_, rfl, rfl, rfl, ⟨_, rfl⟩, ⟨_, rfl⟩, rfl⟩
  intro v hv
  have hv : v ∈ [Concrete.catView 5 [1, 2], Concrete.catView 6 [3]] := hv
  rcases List.mem_cons.1 hv with rfl | hv
  · exact ⟨_, ⟨[Concrete.catCol 1, Concrete.catCol 2]⟩, rfl, rfl, rfl⟩
  · rw [List.mem_singleton.1 hv]
    exact ⟨_, ⟨[Concrete.catCol 3]⟩, rfl, rfl, rfl⟩

/-- C118 with a row without cells: a row of which only the cluster in the view is observed stops the
rendering (`get_components_observes` asserts that a row has a value, src/sample_crosscat.py:349). -/
theorem C118_bare_violated (g : Rng) : ∃ v v' : View, Tidy [5] 2 v ∧ IsView v ∧
    (cgpmI 2).observe (some 0) [(5, .num 0)] [] (v, g) = (.ok (), (v', g)) ∧
    (∃ s, render ⟨[v]⟩ ["id", "a", "b"] = .ok s) ∧
    render ⟨[v']⟩ ["id", "a", "b"] = .error .assertionError :=
  ⟨Concrete.catView 5 [1, 2], (.flexMix ⟨.crp { Crp.init [5] [] [] [] with data := [(some 0, 0)], N := 1, counts := [(0, 1)] },
      { FlexArray.init (.product ⟨[Concrete.catCol 1, Concrete.catCol 2]⟩) 5 with
        cgpms := [(.num 0, .product ⟨[Concrete.catCol 1, Concrete.catCol 2]⟩)], rowidToIndex := [(some 0, .num 0)] },
      [(some 0, .num 0)]⟩ : Node (Node Prim)),
    Concrete.catView_tidy (by simp) (by simp) (by simp) rfl, ⟨_, ⟨[Concrete.catCol 1, Concrete.catCol 2]⟩, rfl, rfl, rfl⟩,
    rfl, ⟨_, rfl⟩, rfl⟩

/-- C118 with a Bernoulli column: the program is not rendered (src/sample_crosscat.py:440). -/
theorem C118_bernoulli_violated (schema : List String) : render ⟨[(.flexMix ⟨.crp (Crp.init [5] [] [] []),
    FlexArray.init (.product ⟨[.bernoulli (Bernoulli.init [1] [] [] [])]⟩) 5, []⟩ : Node (Node Prim))]⟩ schema =
      .error .assertionError := rfl

end Cgpm2.Props
