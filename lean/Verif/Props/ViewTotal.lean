import Verif.Lemmas.ConcreteCrowd

/-!
# C93: moving columns between views succeeds
-/

namespace Cgpm2.Props
open Spec Views

/-- C93: `set_cgpm_view_assignment(x, o0, o1)` returns, whatever the CrossCat, its data and the random
state. -/
theorem C93_existing (Z : List Var) (x : Crosscat) (h : Tidy Z 3 (whole x)) (hx : IsCrosscat x)
    (hz : ∀ v ∈ columns x, v ∉ Z) (o0 o1 : Var) (h0 : o0 ∈ columns x) (h1 : o1 ∈ columns x) (g : Rng) :
    ∃ x' s, setViewAssignment o0 (some o1) (x, g) = (.ok x', s) := by
  obtain ⟨x', x'', g', e, -⟩ := setExisting_total (cc_of_tidy h hx hz) h0 h1 g
  exact ⟨x', _, e⟩

example : Tidy [5, 6] 3 (whole Concrete.ccat) ∧ IsCrosscat Concrete.ccat ∧
    (∀ v ∈ columns Concrete.ccat, v ∉ [5, 6]) ∧ 2 ∈ columns Concrete.ccat ∧ 3 ∈ columns Concrete.ccat :=
  ⟨Concrete.ccat_tidy, Concrete.ccat_crosscat, Concrete.ccat_plain, by simp [Concrete.ccat_columns],
    by simp [Concrete.ccat_columns]⟩

/-- C93: `set_cgpm_view_assignment(x, o0, None)` returns, if the integer it draws for the cluster
variable of the new view is not a variable of the CrossCat. -/
theorem C93_singleton_partial (Z : List Var) (x : Crosscat) (h : Tidy Z 3 (whole x)) (hx : IsCrosscat x)
    (hz : ∀ v ∈ columns x, v ∉ Z) (o0 : Var) (h0 : o0 ∈ columns x) (g : Rng)
    (hg : drawnInt g 0 ∉ (cgpmI 3).outputs (whole x)) :
    ∃ x' s, setViewAssignment o0 none (x, g) = (.ok x', s) := by
  obtain ⟨x', g', e, -⟩ := setSingleton_total (cc_of_tidy h hx hz) h0 g (by rwa [drawnVar_eq])
  exact ⟨x', _, e⟩

/-- C93 fails for any other integer: if the column is not alone in its view, and the integer drawn
is a variable of the CrossCat, then `set_cgpm_view_assignment(x, o0, None)` raises. -/
theorem C93_singleton_violated (Z : List Var) (x : Crosscat) (h : Tidy Z 3 (whole x)) (hx : IsCrosscat x)
    (hz : ∀ v ∈ columns x, v ∉ Z) (o0 o : Var) (ho : o ≠ o0) (ht : Together x o0 o) (g : Rng)
    (hg : drawnInt g 0 ∈ (cgpmI 3).outputs (whole x)) :
    ∃ e s, setViewAssignment o0 none (x, g) = (.error e, s) := by
  have h0 : o0 ∈ columns x := by
    obtain ⟨v, hv, h0, -⟩ := ht
    exact mem_columns.2 ⟨v, hv, h0⟩
  rcases hr : setSingleton o0 (x, g) with ⟨e | x', s⟩
  · exact ⟨e, s, hr⟩
  · exact absurd hr (setSingleton_fails (cc_of_tidy h hx hz) h0 ho ht g (by rwa [drawnVar_eq]))

/-- With a random state whose integers are 7 column 2 gets a view of its own, but not with one whose
integers are 5. -/
example : (∀ n, drawnInt Concrete.g7 n ∉ (cgpmI 3).outputs (whole Concrete.ccat)) ∧
    Together Concrete.ccat 2 1 ∧ drawnInt Concrete.g5 0 ∈ (cgpmI 3).outputs (whole Concrete.ccat) :=
  ⟨fun n => Concrete.ccat_noClash (n + 1) n (by omega), Concrete.ccat_with, Concrete.ccat_clash⟩

/-- C93: `transition_cgpm_view_assigments(x, outs, aux)` returns for columns of one of the first 257
views, if none of the first integers that can be drawn for cluster variables is a variable of the
CrossCat.  The number is that of the values of `outs` times the number of proposals, and `aux`. -/
theorem C93_transition_partial (Z : List Var) (x : Crosscat) (h : Tidy Z 3 (whole x)) (hx : IsCrosscat x)
    (hz : ∀ v ∈ columns x, v ∉ Z) (outs : List Var) (hne : outs ≠ []) (hnd : outs.Nodup)
    (k : Nat) (hk : k < 257) (view : View) (hv : x.cgpms[k]? = some view)
    (ho : ∀ o ∈ outs, o ∈ viewColumns view) (rows : List RowId) (hr : Covers rows outs x) (aux : Nat) (g : Rng)
    (hg : NoClash ((x.cgpms.length + aux) * (outs.length * rows.length) + aux) g x) :
    ∃ x' s, transitionViewAssignments outs aux (x, g) = (.ok x', s) := by
  have hcc := cc_of_tidy h hx hz
  obtain ⟨x', x'', g', e, -⟩ := transition_total hcc hne hnd hv ho (by omega) (rows := rows)
    (fun o ho' r hc => hr o ho' r g (by rwa [heldCell_eq (cgpmTLaws Z 3) hcc.reg])) aux g
    (fun n hn => hg n (by unfold draws at hn; linarith))
  exact ⟨x', _, e⟩

example : (∃ view, Concrete.ccat.cgpms[0]? = some view ∧ ∀ o ∈ [2], o ∈ viewColumns view) ∧
    Covers [some 0, some 1] [2] Concrete.ccat ∧
    NoClash ((Concrete.ccat.cgpms.length + 1) * ([2].length * [some 0, some 1].length) + 1) Concrete.g7 Concrete.ccat :=
  ⟨⟨_, rfl, by simp [show viewColumns (.flexMix Concrete.viewA : Node (Node Prim)) = [1, 2] from rfl]⟩,
    Concrete.ccat_covers, Concrete.ccat_noClash _⟩

/-- C93 fails for the columns of all other views: `transition_cgpm_view_assigments` raises, whatever
the CrossCat and the random state (the positions of the views are compared with `is not`). -/
theorem C93_transition_violated (Z : List Var) (x : Crosscat) (h : Tidy Z 3 (whole x)) (hx : IsCrosscat x)
    (hz : ∀ v ∈ columns x, v ∉ Z) (outs : List Var) (hne : outs ≠ [])
    (k : Nat) (hk : 257 ≤ k) (view : View) (hv : x.cgpms[k]? = some view)
    (ho : ∀ o ∈ outs, o ∈ viewColumns view) (aux : Nat) (g : Rng) :
    ∃ e s, transitionViewAssignments outs aux (x, g) = (.error e, s) := by
  rcases hr : transitionViewAssignments outs aux (x, g) with ⟨e | x', s⟩
  · exact ⟨e, s, rfl⟩
  · exact absurd hr (transition_fails (cc_of_tidy h hx hz) hne hv ho (by omega) aux g)

/-- A CrossCat of 300 views. -/
example : ∃ Z, Tidy Z 3 (whole (Concrete.crowd 300)) ∧ IsCrosscat (Concrete.crowd 300) ∧
    (∀ v ∈ columns (Concrete.crowd 300), v ∉ Z) ∧
    ∃ view, (Concrete.crowd 300).cgpms[257]? = some view ∧ ∀ o ∈ [514], o ∈ viewColumns view :=
  ⟨_, Concrete.crowd_tidy (by norm_num), Concrete.crowd_crosscat _, Concrete.crowd_plain _,
    Concrete.crowd_view (i := 257) (by norm_num)⟩

end Cgpm2.Props
