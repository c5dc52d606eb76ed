import Verif.Lemmas.ConcreteDensity
import Verif.Lemmas.MoveRow
import Verif.Props.Composite
import Verif.Props.MixDefects

/-!
# A concrete mixture with two rows, used by the `example`s beside the theorems (helpers)
-/

namespace Cgpm2.Concrete
open Spec

theorem small_tidy : Tidy [5] 1 (.flexMix small : Node Prim) :=
  .flexMix (n := 0) crp0_legally rfl (.inl rfl) (by simp [Prim.outputs, Crp.init]) rfl cat0_tidy
    (fun r g v => rfl)
    (Props.C13_fresh (.categorical 1 [] [] [] 3)
      (by simp [LegalHypers, Categorical.init, Dict.get?]))
    (by simp [Prim.outputs, Crp.init, Categorical.init, cgpmI, primI]) rfl

/-- Row 1 in cluster 0 with value 2. -/
noncomputable def cat1 : Categorical := { Categorical.init [1] [] [] [] 3 with data := [(some 1, .num 2)], N := 1, counts := [0, 0, 1] }
/-- Row 2 in cluster 1 with value 1. -/
noncomputable def cat2 : Categorical := { Categorical.init [1] [] [] [] 3 with data := [(some 2, .num 1)], N := 1, counts := [0, 1, 0] }

/-- The mixture holding row 1. -/
noncomputable def one : FlexMix Prim :=
  ⟨.crp { Crp.init [5] [] [] [] with data := [(some 1, 0)], N := 1, counts := [(0, 1)] },
   { FlexArray.init (.categorical (Categorical.init [1] [] [] [] 3)) 5 with
      cgpms := [(.num 0, .categorical cat1)], rowidToIndex := [(some 1, .num 0)] }, [(some 1, .num 0)]⟩

/-- The mixture holding rows 1 and 2, in different clusters. -/
noncomputable def two : FlexMix Prim :=
  ⟨.crp { Crp.init [5] [] [] [] with data := [(some 1, 0), (some 2, 1)], N := 2, counts := [(0, 1), (1, 1)] },
   { FlexArray.init (.categorical (Categorical.init [1] [] [] [] 3)) 5 with
      cgpms := [(.num 0, .categorical cat1), (.num 1, .categorical cat2)],
      rowidToIndex := [(some 1, .num 0), (some 2, .num 1)] }, [(some 1, .num 0), (some 2, .num 1)]⟩

theorem one_observe (g : Rng) : (cgpmI 1).observe (some 1) [(5, .num 0), (1, .num 2)] []
    ((.flexMix small : Node Prim), g) = (.ok (), ((.flexMix one : Node Prim), g)) := rfl

theorem two_observe (g : Rng) : (cgpmI 1).observe (some 2) [(5, .num 1), (1, .num 1)] []
    ((.flexMix one : Node Prim), g) = (.ok (), ((.flexMix two : Node Prim), g)) := rfl

theorem small_whole (b : ℚ) (k : Int) : WholeClusters [5] [(5, .num (k : ℚ)), (1, .num b)] := by
  intro v hv x hx
  obtain rfl : v = 5 := by simpa using hv
  rw [Dict.get?_cons, if_pos rfl] at hx
  cases hx
  exact ⟨k, rfl⟩

theorem one_tidy : Tidy [5] 1 (.flexMix one : Node Prim) :=
  .observe small_tidy (by simpa using small_whole 2 0) (one_observe fun _ => ⟨0, 0⟩)

theorem two_tidy : Tidy [5] 1 (.flexMix two : Node Prim) :=
  .observe one_tidy (by simpa using small_whole 1 1) (two_observe fun _ => ⟨0, 0⟩)

/-- The mixture after `unobserve(2)`: the empty component of cluster 1 stays. -/
noncomputable def one' : FlexMix Prim :=
  { one with array := { one.array with
      cgpms := one.array.cgpms ++ [(.num 1, .categorical (Categorical.init [1] [] [] [] 3))] } }

theorem two_unobserve (g : Rng) : (flexMixI primI).unobserve (some 2) (two, g) =
    (.ok ([(5, .num 1), (1, .num 1)], []), (one', g)) := rfl

theorem two_without (g : Rng) : without (n := 1) (.flexMix two : Node Prim) (some 2) g = (.flexMix one' : Node Prim) := rfl

theorem one'_support : one'.rowDivide.outputs = [5] ∧ one'.rowDivide.support = .ok [0, 1] := ⟨rfl, rfl⟩

theorem one'_none : HoldsNothing (flexMixI primI) one' none := fun _ _ => rfl

theorem nextTable01 : NextTable [0] 1 := .inr (by simp)

theorem one'_fits {k : Int} (hk : k ∈ ([0, 1] : List Int)) :
    Fits 1 (.flexMix one' : Node Prim) [(5, .num (k : ℚ)), (1, .num 1)] := by
  have hk : k = 0 ∨ k = 1 := by simpa using hk
  rcases hk with rfl | rfl
  · refine ⟨5, 0, rfl, rfl, .inl ?_, 1, .num 1, rfl, rfl, 1, by decide, rfl⟩
    rw [Int.cast_zero, trunc0]; simp
  · refine ⟨5, 1, rfl, rfl, .inr ?_, 1, .num 1, rfl, rfl, 1, by decide, rfl⟩
    rw [Int.cast_one, trunc1]; exact nextTable01

theorem one'_plausible {k : Int} (hk : k ∈ ([0, 1] : List Int)) :
    ∀ kv ∈ ([(5, .num (k : ℚ)), (1, .num 1)] : Dict Var Val),
      Plausible 1 (.flexMix one' : Node Prim) kv.1 kv.2 := by
  intro kv hkv
  have hkv : kv = (5, .num (k : ℚ)) ∨ kv = (1, .num 1) := by
    rcases List.mem_cons.1 hkv with h | h
    · exact .inl h
    · exact .inr (List.mem_singleton.1 h)
  refine ⟨fun hv => ?_, fun c hc => ?_⟩
  · rcases hkv with rfl | rfl
    · exact ⟨[0, 1], k, rfl, hk, rfl⟩
    · have : (1 : Var) ∈ ([5] : List Var) := hv
      exact absurd this (by decide)
  · have hc : c = Prim.categorical (Categorical.init [1] [] [] [] 3) ∨ c = Prim.categorical cat1 := by
      have hc : c ∈ [Prim.categorical (Categorical.init [1] [] [] [] 3), Prim.categorical cat1,
        Prim.categorical (Categorical.init [1] [] [] [] 3)] := hc
      rcases List.mem_cons.1 hc with h | h
      · exact .inl h
      rcases List.mem_cons.1 h with h | h
      · exact .inr h
      · exact .inl (List.mem_singleton.1 h)
    have h5 : (5 : Var) ∉ ([1] : List Var) := by decide
    rcases hc with rfl | rfl <;> rcases hkv with rfl | rfl <;> intro hv
    · exact absurd hv h5
    · exact ⟨⟨1, by decide, rfl⟩, nofun⟩
    · exact absurd hv h5
    · exact ⟨⟨1, by decide, rfl⟩, nofun⟩

end Cgpm2.Concrete
