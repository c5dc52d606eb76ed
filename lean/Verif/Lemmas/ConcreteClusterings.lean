import Verif.Lemmas.SweepLaw
import Verif.Lemmas.ConcretePosterior

/-!
# The clusterings of two rows (helpers for the examples)
-/

namespace Cgpm2.Concrete
open Spec Views Cpp

/-- The view of column 1 with rows 0 and 1 in one cluster. -/
noncomputable abbrev together : View := (.flexMix duo5 : Node (Node Prim))

/-- The same rows in two clusters. -/
noncomputable abbrev apart : View := (.flexMix split5 : Node (Node Prim))

theorem together_mates (r r' : RowId) : Mates together r r' ↔ (r = some 0 ∨ r = some 1) ∧ (r' = some 0 ∨ r' = some 1) := by
  rw [mates_iff (tidy_reg duo5_tidy)]
  simp only [duo5_cluster, two_cells]
  constructor
  · rintro ⟨k, h1, h2⟩
    split at h1 <;> split at h2 <;> simp_all
  · rintro ⟨rfl | rfl, rfl | rfl⟩ <;> exact ⟨.num 0, by simp⟩

theorem apart_mates (r r' : RowId) : Mates apart r r' ↔ (r = some 0 ∨ r = some 1) ∧ r' = r := by
  rw [mates_iff (tidy_reg split5_tidy)]
  simp only [split5_cluster, two_cells]
  constructor
  · rintro ⟨k, h1, h2⟩
    by_cases h0 : r = some 0 <;> by_cases h0' : r' = some 0 <;> by_cases h1' : r = some 1 <;>
      by_cases h2' : r' = some 1 <;> simp_all
    · exact absurd (h1.trans h2.symm) (by simp)
    · exact absurd (h1.trans h2.symm) (by simp)
  · rintro ⟨rfl | rfl, rfl⟩
    · exact ⟨.num 0, by simp⟩
    · exact ⟨.num 1, by simp⟩

theorem together_known : FullyKnown together where
  missing p hp hk o ho g r := by
    rcases duo5_prims p hp with h | h
    · have : Prim.kind p = .crp := h.kind.symm
      rw [this] at hk
      rcases hk with hk | hk <;> cases hk
    · have : Prim.kind p = .categorical := h.kind.symm
      rw [this] at hk
      rcases hk with hk | hk <;> cases hk
  anonymous g o := by
    rw [heldCell_eq (cgpmTLaws [5] 2) (tidy_reg duo5_tidy)]
    exact cell_absent (tidy_reg duo5_tidy) duo5_view rfl o

theorem duo5_self : SameContents together together where
  cluster := rfl
  columns := .refl _
  hypers p hp q hq h := of5_same (duo5_prims p hp) (duo5_prims q hq) h
  cells _ _ _ _ := rfl

theorem two_clusterings : Clusterings [5] together [together, apart] where
  each u hu := by
    rcases List.mem_cons.1 hu with rfl | hu
    · exact ⟨duo5_tidy, duo5_view, duo5_self, fun _ => Iff.rfl⟩
    · obtain rfl := List.mem_singleton.1 hu
      refine ⟨split5_tidy, split5_view, duo5_split5, fun r => ?_⟩
      rw [together_mates, apart_mates]
      simp
  once := by
    rw [List.pairwise_pair]
    intro h
    have := (h (some 0) (some 1)).1 ((together_mates _ _).2 ⟨.inl rfl, .inr rfl⟩)
    rw [apart_mates] at this
    exact absurd this.2 (by decide)
  all u hu := by
    have hrows : ∀ r, Mates u r r ↔ r = some 0 ∨ r = some 1 := fun r => by
      rw [← hu.rows, together_mates]
      simp
    have hin : ∀ r r', Mates u r r' → (r = some 0 ∨ r = some 1) ∧ (r' = some 0 ∨ r' = some 1) := fun r r' h =>
      ⟨(hrows r).1 (Mates.trans' h (Mates.symm' h)), (hrows r').1 (Mates.trans' (Mates.symm' h) h)⟩
    by_cases h01 : Mates u (some 0) (some 1)
    · refine ⟨together, by simp, fun r r' => ?_⟩
      rw [together_mates]
      refine ⟨hin r r', ?_⟩
      rintro ⟨rfl | rfl, rfl | rfl⟩
      · exact (hrows _).2 (.inl rfl)
      · exact h01
      · exact Mates.symm' h01
      · exact (hrows _).2 (.inr rfl)
    · refine ⟨apart, by simp, fun r r' => ?_⟩
      rw [apart_mates]
      constructor
      · intro h
        obtain ⟨rfl | rfl, rfl | rfl⟩ := hin r r' h
        · simp
        · exact absurd h h01
        · exact absurd (Mates.symm' h) h01
        · simp
      · rintro ⟨h, rfl⟩
        exact (hrows _).2 h

end Cgpm2.Concrete
