import Verif.Lemmas.ViewTogether
import Verif.Lemmas.TidyLaws
import Verif.Lemmas.ConcreteViews

/-!
# Properties C44 and C45: moving columns between views
-/

namespace Cgpm2.Props
open Spec Views

/-- C44: `set_cgpm_view_assignment(x, o0, o1)` keeps the data.  If all views have the same rows,
then so do those of the result, and all clusters are as before. -/
theorem C44_set_existing (Z : List Var) (x x' : Crosscat) (h : Tidy Z 3 (whole x)) (hx : IsCrosscat x)
    (hz : ∀ v ∈ columns x, v ∉ Z) (o0 o1 : Var) (h0 : o0 ∈ columns x) (h1 : o1 ∈ columns x)
    (g : Rng) (s : Crosscat × Rng) (he : setViewAssignment o0 (some o1) (x, g) = (.ok x', s)) :
    SameData x x' [] ∧ ∀ R, Aligned x R → Aligned x' R ∧ SameClusters x x' [] := by
  have hc := cc_of_tidy h hx hz
  obtain ⟨a1, v1, hv1, ho1, a2⟩ := setExisting_ok hc h0 h1 (he : setExisting o0 o1 (x, g) = (.ok x', (s.1, s.2)))
  have hp : (columns x').Perm (columns x) := by
    rcases a2 with ⟨-, a2⟩ | a2
    · rw [a2.columns]
    · exact a2.perm hc (by simp)
  exact ⟨a1.data hc hp, fun R hR => existing_rows hc a1 hp hR⟩

/-- Column 2 of a concrete CrossCat of two views and two rows is moved to the view of column 3. -/
example (g : Rng) : Tidy [5, 6] 3 (whole Concrete.ccat) ∧ IsCrosscat Concrete.ccat ∧
    (∀ v ∈ columns Concrete.ccat, v ∉ [5, 6]) ∧ 2 ∈ columns Concrete.ccat ∧ 3 ∈ columns Concrete.ccat ∧
    (∃ s, setViewAssignment 2 (some 3) (Concrete.ccat, g) = (.ok Concrete.ccat', s)) ∧
    Aligned Concrete.ccat fun r => r = some 0 ∨ r = some 1 :=
  ⟨Concrete.ccat_tidy, Concrete.ccat_crosscat, Concrete.ccat_plain, by simp [Concrete.ccat_columns],
    by simp [Concrete.ccat_columns], ⟨_, Concrete.ccat_existing g⟩, Concrete.ccat_aligned⟩

/-- C44: `set_cgpm_view_assignment(x, o0, None)` keeps the data.  The new view has the rows with a
value in the column: if all views have the same rows, and each row has a value in the column, then
all views of the result have the same rows, and the clusters of the others are as before. -/
theorem C44_set_singleton_partial (Z : List Var) (x x' : Crosscat) (h : Tidy Z 3 (whole x)) (hx : IsCrosscat x)
    (hz : ∀ v ∈ columns x, v ∉ Z) (o0 : Var) (h0 : o0 ∈ columns x)
    (g : Rng) (s : Crosscat × Rng) (he : setViewAssignment o0 none (x, g) = (.ok x', s)) :
    ∃ z, SameData x x' [z] ∧ AloneIn x x' [o0] z ∧
      ∀ R, Aligned x R → (∀ r, R r → HasValue x [o0] r) → Aligned x' R ∧ SameClusters x x' [z] := by
  have hc := cc_of_tidy h hx hz
  obtain ⟨z, a1, a2, a3⟩ := setSingleton_ok hc h0 (he : setSingleton o0 (x, g) = (.ok x', (s.1, s.2)))
  have hp := a3.perm hc (by simp)
  exact ⟨z, a1.data hc hp, a2.alone hc a1, fun R hR hv => singleton_rows hc a1 hp hR hv⟩

/-- Column 2 of the concrete CrossCat gets a view of its own.  Each row has a value in column 3. -/
example : (∃ g x' s, setViewAssignment 2 none (Concrete.ccat, g) = (.ok x', s)) ∧
    ∀ r, (r = some 0 ∨ r = some 1) → HasValue Concrete.ccat [3] r :=
  ⟨⟨_, _, Concrete.ccat_singleton⟩, Concrete.ccat_filled⟩

/-- C44 fails where a row has no value in the column: `set_cgpm_view_assignment(x, o0, None)` drops
the row from the new view, and the views of the result do not have the same rows. -/
theorem C44_rows_violated : ∃ (Z : List Var) (x x' : Crosscat) (o0 : Var) (g : Rng) (s : Crosscat × Rng),
    Tidy Z 3 (whole x) ∧ IsCrosscat x ∧ (∀ v ∈ columns x, v ∉ Z) ∧ o0 ∈ columns x ∧
    (∃ R, Aligned x R) ∧ setViewAssignment o0 none (x, g) = (.ok x', s) ∧ ¬ ∃ R, Aligned x' R := by
  obtain ⟨s, hs⟩ := Concrete.ccat_singleton
  refine ⟨[5, 6], Concrete.ccat, Concrete.ccat7, 2, Concrete.g7, s, Concrete.ccat_tidy,
    Concrete.ccat_crosscat, Concrete.ccat_plain, by simp [Concrete.ccat_columns],
    ⟨_, Concrete.ccat_aligned⟩, hs, ?_⟩
  rintro ⟨R, hR⟩
  obtain ⟨z, -, ⟨v, hv, -, h1⟩, -⟩ := C44_set_singleton_partial [5, 6] Concrete.ccat Concrete.ccat7
    Concrete.ccat_tidy Concrete.ccat_crosscat Concrete.ccat_plain 2 (by simp [Concrete.ccat_columns])
    Concrete.g7 s hs
  have h2 : HasRow (.flexMix Concrete.viewB : Node (Node Prim)) (some 1) :=
    (Concrete.ccat_aligned _ (List.mem_cons_of_mem _ List.mem_cons_self) _).2 (.inr rfl)
  have h3 : R (some 1) := (hR _ List.mem_cons_self _).1 h2
  exact Concrete.ccat_unfilled ((h1 _).1 ((hR v hv _).2 h3))

/-- C44: `transition_cgpm_view_assigments(x, outs, aux)` keeps the data: the columns stay where they
are, move to another view, or make up a new one. -/
theorem C44_transition_partial (Z : List Var) (x x' : Crosscat) (h : Tidy Z 3 (whole x)) (hx : IsCrosscat x)
    (hz : ∀ v ∈ columns x, v ∉ Z) (outs : List Var) (hne : outs ≠ []) (hnd : outs.Nodup)
    (ho : ∀ o ∈ outs, o ∈ columns x) (aux : Nat) (g : Rng) (s : Crosscat × Rng)
    (he : transitionViewAssignments outs aux (x, g) = (.ok x', s)) :
    (SameData x x' [] ∧ ∀ R, Aligned x R → Aligned x' R ∧ SameClusters x x' []) ∨
      ∃ z, SameData x x' [z] ∧ AloneIn x x' outs z ∧
        ∀ R, Aligned x R → (∀ r, R r → HasValue x outs r) → Aligned x' R ∧ SameClusters x x' [z] := by
  have hc := cc_of_tidy h hx hz
  rcases transition_ok hc hne hnd ho (x'' := s.1) (g' := s.2) he with
    ⟨a1, -, a2⟩ | ⟨a1, v1, -, a2⟩ | ⟨z, a1, a2, a3⟩
  · have hp : (columns x').Perm (columns x) := by rw [a2.columns]
    exact .inl ⟨a1.data hc hp, fun R hR => existing_rows hc a1 hp hR⟩
  · have hp := a2.perm hc hnd
    exact .inl ⟨a1.data hc hp, fun R hR => existing_rows hc a1 hp hR⟩
  · have hp := a3.perm hc hnd
    exact .inr ⟨z, a1.data hc hp, a2.alone hc a1, fun R hR hv => singleton_rows hc a1 hp hR hv⟩

/-- The transition of column 2 of the concrete CrossCat returns, whatever the random state. -/
example (g : Rng) : (∀ o ∈ [2], o ∈ columns Concrete.ccat) ∧
    ∃ x' s, transitionViewAssignments [2] 0 (Concrete.ccat, g) = (.ok x', s) :=
  ⟨by simp [Concrete.ccat_columns], Concrete.ccat_transition g⟩

/-- C45: after `set_cgpm_view_assignment(x, o0, o1)` the two columns are in one view, with exactly
the columns that were with `o1`; the other columns are together exactly when they were before. -/
theorem C45_existing (Z : List Var) (x x' : Crosscat) (h : Tidy Z 3 (whole x)) (hx : IsCrosscat x)
    (hz : ∀ v ∈ columns x, v ∉ Z) (o0 o1 : Var) (h0 : o0 ∈ columns x) (h1 : o1 ∈ columns x)
    (g : Rng) (s : Crosscat × Rng) (he : setViewAssignment o0 (some o1) (x, g) = (.ok x', s)) :
    Together x' o0 o1 ∧ (∀ b, b ≠ o0 → (Together x' o0 b ↔ Together x o1 b)) ∧
      ∀ a b, a ≠ o0 → b ≠ o0 → (Together x' a b ↔ Together x a b) := by
  have hc := cc_of_tidy h hx hz
  obtain ⟨a1, v1, hv1, ho1, a2⟩ := setExisting_ok hc h0 h1 (he : setExisting o0 o1 (x, g) = (.ok x', (s.1, s.2)))
  rcases a2 with ⟨h3, a2⟩ | a2
  · refine ⟨a2.together.2 ⟨v1, hv1, h3, ho1⟩, fun b _ => ?_, fun a b _ _ => a2.together⟩
    rw [a2.together, together_view hc hv1 h3, together_view hc hv1 ho1]
  · obtain ⟨t1, t2, t3⟩ := moved_tog a2 (by simp) (cols_flatten hc)
    simp only [← together_iff, List.mem_singleton, List.flatten_cons, List.flatten_nil,
      List.append_nil] at t1 t2
    refine ⟨(t2 o0 o1 rfl).2 (.inr ho1), fun b hb => ?_, fun a b ha hb => t1 a b ha hb⟩
    rw [t2 o0 b rfl, together_view hc hv1 ho1]
    simp [hb]

/-- In the concrete CrossCat columns 2 and 3 are apart, and then together. -/
example : ¬ Together Concrete.ccat 2 3 ∧ Together Concrete.ccat' 2 3 :=
  ⟨Concrete.ccat_apart, (C45_existing _ _ _ Concrete.ccat_tidy Concrete.ccat_crosscat Concrete.ccat_plain 2 3
    (by simp [Concrete.ccat_columns]) (by simp [Concrete.ccat_columns]) (fun _ => ⟨0, 0⟩) _
    (Concrete.ccat_existing _)).1⟩

/-- C45: after `set_cgpm_view_assignment(x, o0, None)` the column is alone in its view; the other
columns are together exactly when they were before. -/
theorem C45_singleton (Z : List Var) (x x' : Crosscat) (h : Tidy Z 3 (whole x)) (hx : IsCrosscat x)
    (hz : ∀ v ∈ columns x, v ∉ Z) (o0 : Var) (h0 : o0 ∈ columns x)
    (g : Rng) (s : Crosscat × Rng) (he : setViewAssignment o0 none (x, g) = (.ok x', s)) :
    (∀ b, Together x' o0 b ↔ b = o0) ∧
      ∀ a b, a ≠ o0 → b ≠ o0 → (Together x' a b ↔ Together x a b) := by
  have hc := cc_of_tidy h hx hz
  obtain ⟨z, a1, a2, a3⟩ := setSingleton_ok hc h0 (he : setSingleton o0 (x, g) = (.ok x', (s.1, s.2)))
  obtain ⟨t1, t2, t3⟩ := moved_tog a3 (by simp) (cols_flatten hc)
  simp only [← together_iff, List.mem_singleton, List.flatten_nil, List.not_mem_nil,
    or_false] at t1 t2
  exact ⟨fun b => t2 o0 b rfl, fun a b ha hb => t1 a b ha hb⟩

example : ∀ b, Together Concrete.ccat7 2 b ↔ b = 2 := by
  obtain ⟨s, hs⟩ := Concrete.ccat_singleton
  exact (C45_singleton _ _ _ Concrete.ccat_tidy Concrete.ccat_crosscat Concrete.ccat_plain 2
    (by simp [Concrete.ccat_columns]) _ _ hs).1

/-- C45: `transition_cgpm_view_assigments(x, outs, aux)` leaves the other columns together exactly
when they were before, and the columns `outs` together; they are with the columns they were with,
or with exactly those of another view, or alone. -/
theorem C45_transition (Z : List Var) (x x' : Crosscat) (h : Tidy Z 3 (whole x)) (hx : IsCrosscat x)
    (hz : ∀ v ∈ columns x, v ∉ Z) (outs : List Var) (hne : outs ≠ []) (hnd : outs.Nodup)
    (ho : ∀ o ∈ outs, o ∈ columns x) (aux : Nat) (g : Rng) (s : Crosscat × Rng)
    (he : transitionViewAssignments outs aux (x, g) = (.ok x', s)) :
    (∀ a b, a ∉ outs → b ∉ outs → (Together x' a b ↔ Together x a b)) ∧
    (∀ a ∈ outs, ∀ b ∈ outs, Together x' a b) ∧
    ((∀ a ∈ outs, ∀ b, b ∉ outs → (Together x' a b ↔ Together x a b)) ∨
      (∃ o1 ∈ columns x, o1 ∉ outs ∧
        ∀ a ∈ outs, ∀ b, b ∉ outs → (Together x' a b ↔ Together x o1 b)) ∨
      ∀ a ∈ outs, ∀ b, b ∉ outs → ¬ Together x' a b) := by
  have hc := cc_of_tidy h hx hz
  rcases transition_ok hc hne hnd ho (x'' := s.1) (g' := s.2) he with
    ⟨a1, ⟨v, hv, hov⟩, a2⟩ | ⟨a1, v1, hv1, a2⟩ | ⟨z, a1, a2, a3⟩
  · exact ⟨fun a b _ _ => a2.together, fun a ha b hb => a2.together.2 ⟨v, hv, hov a ha, hov b hb⟩,
      .inl fun a _ b _ => a2.together⟩
  · obtain ⟨t1, t2, t3⟩ := moved_tog a2 (by simp) (cols_flatten hc)
    simp only [← together_iff, List.flatten_cons, List.flatten_nil, List.append_nil] at t1 t2 t3
    refine ⟨t1, fun a ha b hb => (t2 a b ha).2 (.inl hb), .inr (.inl ?_)⟩
    obtain ⟨o1, ho1⟩ := List.exists_mem_of_ne_nil _ (hc.nonempty hv1)
    refine ⟨o1, mem_columns.2 ⟨v1, hv1, ho1⟩, fun h' => t3 o1 h' ho1, fun a ha b hb => ?_⟩
    rw [t2 a b ha, together_view hc hv1 ho1]
    simp [hb]
  · obtain ⟨t1, t2, t3⟩ := moved_tog a3 (by simp) (cols_flatten hc)
    simp only [← together_iff, List.flatten_nil, List.not_mem_nil, or_false] at t1 t2
    exact ⟨t1, fun a ha b hb => (t2 a b ha).2 hb, .inr (.inr fun a ha b hb h' => hb ((t2 a b ha).1 h'))⟩

example (g : Rng) : ∃ x', Together x' 2 2 ∧ ∀ a b, a ∉ [2] → b ∉ [2] → (Together x' a b ↔ Together Concrete.ccat a b) := by
  obtain ⟨x', s, hs⟩ := Concrete.ccat_transition g
  have := C45_transition _ _ _ Concrete.ccat_tidy Concrete.ccat_crosscat Concrete.ccat_plain [2] (by simp) (by simp)
    (by simp [Concrete.ccat_columns]) 0 g s hs
  exact ⟨x', this.2.1 2 (by simp) 2 (by simp), this.1⟩

end Cgpm2.Props
