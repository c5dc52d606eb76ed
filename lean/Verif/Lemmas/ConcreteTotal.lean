import Verif.Lemmas.ConcreteExport
import Verif.Lemmas.ConcreteCrowd

/-!
# A random state whose first integers are different
-/

namespace Cgpm2.Concrete
open Spec Views

/-- The integers drawn are 10, 11, 12, … -/
noncomputable def gseq : Rng := fun n => ⟨(n + 10) / (2 ^ 32 - 1), 0⟩

theorem gseq_drawn {n : Nat} (h : n < 1000) : drawnInt gseq n = n + 10 := by
  have hn : (n : ℝ) < 1000 := by exact_mod_cast h
  have h0 : (0 : ℝ) ≤ n := n.cast_nonneg
  unfold drawnInt gseq
  dsimp only
  rw [Int.fract_eq_self.2 ⟨by positivity, by rw [div_lt_one] <;> linarith⟩]
  rw [div_mul_cancel₀ _ (by norm_num)]
  rw [Int.floor_eq_iff]
  push_cast
  constructor <;> linarith

theorem gseq_apart {x : Crosscat} {N : Nat} (hN : N ≤ 1000)
    (h : ∀ a ∈ (cgpmI 3).outputs (whole x), (a : Int) < 10) : NoClashAmong N gseq x := by
  refine ⟨fun n hn hm => ?_, fun n hn m hm e => ?_⟩
  · have h1 := h _ hm
    rw [gseq_drawn (by omega)] at h1
    have : ¬ ((n : Int) + 10 < 10) := by omega
    exact this h1
  · rw [gseq_drawn (by omega), gseq_drawn (by omega)] at e
    have e : (m : Int) + 10 = n + 10 := e
    omega

theorem mono_small : ∀ a ∈ (cgpmI 3).outputs (whole mono), (a : Int) < 10 := fun a ha => by
  have : (cgpmI 3).outputs (whole mono) = [5, 1, 2] := rfl
  rw [this] at ha
  rcases List.mem_cons.1 ha with rfl | ha
  · decide
  rcases List.mem_cons.1 ha with rfl | ha
  · decide
  rcases List.mem_cons.1 ha with rfl | ha
  · decide
  · cases ha

theorem mono_apart : NoClashAmong ((columns mono).length * ([(0 : Int), 1].length + 1)) gseq mono :=
  gseq_apart (by rw [mono_columns]; simp) mono_small

theorem mono_complete' : Complete mono fun r => ∃ k ∈ [(0 : Int), 1], r = some k := fun o ho r hr =>
  mono_complete o ho r (by
    obtain ⟨k, hk, rfl⟩ := hr
    simpa using hk)

theorem mono_describes : Describes mono duoAnswer := ⟨rfl, fun i o p hi hp => by
  have hk : p.kind = .categorical := by
    have ho : o ∈ columns mono := List.mem_of_getElem? hi
    have hp' : p ∈ ([.crp { Crp.init [5] [] [] [] with data := [(some 0, 0), (some 1, 1)], N := 2, counts := [(0, 1), (1, 1)] },
      catWith 1 [(0, 2)], catWith 2 [(0, 1)], catWith 1 [(1, 1)], catWith 2 [(1, 0)], catCol 1, catCol 2] : List Prim) := hp.1
    have hpo := hp.2
    rw [mono_columns] at ho
    simp only [List.mem_cons, List.not_mem_nil, or_false] at hp' ho
    rcases hp' with rfl | rfl | rfl | rfl | rfl | rfl | rfl
    · rcases ho with rfl | rfl <;> exact absurd hpo (by simp [Prim.outputs, Crp.init])
    all_goals rfl
  refine .inr ⟨hk, ?_⟩
  rw [mono_columns] at hi
  rcases i with _ | _ | i
  · rfl
  · rfl
  · cases hi⟩

theorem mono_partitions : Partitions (columns mono).length [(0 : Int), 1].length duoAnswer.assignments
    duoAnswer.viewStates duoAnswer.xd := ⟨rfl, rfl, rfl, by simp [duoAnswer]⟩

theorem mono_clash : drawnInt g5 0 ∈ (cgpmI 3).outputs (whole mono) := by
  have : (cgpmI 3).outputs (whole mono) = [5, 1, 2] := rfl
  rw [drawn5, this]; simp

theorem mono_with : Together mono 1 2 := by
  have : viewColumns (.flexMix mono5 : Node (Node Prim)) = [1, 2] := rfl
  exact ⟨_, List.mem_cons_self, by rw [this]; simp, by rw [this]; simp⟩

end Cgpm2.Concrete
