import Verif.Lemmas.ViewFails

/-!
# CrossCats for the examples: many views, clashing random states
-/

namespace Cgpm2.Concrete
open Spec Views

/-- A random state whose integers are 5. -/
noncomputable def g5 : Rng := fun _ => ⟨5 / (2 ^ 32 - 1), 0⟩

theorem drawn7 (n : Nat) : drawnInt g7 n = 7 := by
  unfold drawnInt g7
  dsimp only
  rw [show Int.fract ((7 : ℝ) / (2 ^ 32 - 1)) = 7 / (2 ^ 32 - 1) from Int.fract_eq_self.2 (by norm_num)]
  norm_num

theorem drawn5 (n : Nat) : drawnInt g5 n = 5 := by
  unfold drawnInt g5
  dsimp only
  rw [show Int.fract ((5 : ℝ) / (2 ^ 32 - 1)) = 5 / (2 ^ 32 - 1) from Int.fract_eq_self.2 (by norm_num)]
  norm_num

theorem ccat_outputs : (cgpmI 3).outputs (whole ccat) = [5, 1, 2, 6, 3] := rfl

theorem ccat_noClash (N : Nat) : NoClash N g7 ccat := fun n _ => by
  rw [drawn7, ccat_outputs]; simp

theorem ccat_covers {vars : List Var} : Covers [some 0, some 1] vars ccat := fun v _ r g hc => by
  rw [heldCell_eq (cgpmTLaws [5, 6] 3) (cc_of_tidy ccat_tidy ccat_crosscat ccat_plain).reg] at hc
  by_contra hr
  simp only [List.mem_cons, List.not_mem_nil, or_false, not_or] at hr
  have h0 : ¬some (0 : Int) = r := fun e => hr.1 e.symm
  have h1 : ¬some (1 : Int) = r := fun e => hr.2 e.symm
  refine hc (ProdTab.cell_none_iff.2 fun w hw => ?_)
  have hw : w ∈ [(.flexMix viewA : Node (Node Prim)), (.flexMix viewB : Node (Node Prim))] := hw
  rcases List.mem_cons.1 hw with rfl | hw
  · change (if v = 5 then Dict.get? [(some 0, Val.num 0), (some 1, Val.num 1)] r else
      (Dict.get? [(some 0, Val.num 0), (some 1, Val.num 1)] r).bind _) = none
    simp [h0, h1, Dict.get?]
  · rw [List.mem_singleton.1 hw]
    change (if v = 6 then Dict.get? [(some 0, Val.num 0), (some 1, Val.num 0)] r else
      (Dict.get? [(some 0, Val.num 0), (some 1, Val.num 0)] r).bind _) = none
    simp [h0, h1, Dict.get?]

theorem ccat_clash : drawnInt g5 0 ∈ (cgpmI 3).outputs (whole ccat) := by
  rw [drawn5, ccat_outputs]; simp

theorem ccat_with : Together ccat 2 1 := by
  have : viewColumns (.flexMix viewA : Node (Node Prim)) = [1, 2] := rfl
  exact ⟨_, List.mem_cons_self, by rw [this]; simp, by rw [this]; simp⟩

/-- A CrossCat of `n` views with one column each. -/
noncomputable def crowd (n : Nat) : Crosscat :=
  ⟨(List.range n).map fun i : Nat => catView (2 * (i : Int) + 1) [2 * (i : Int)]⟩

theorem crowd_outputs (z v : Var) : (cgpmI 2).outputs (catView z [v]) = [z, v] := rfl
theorem crowd_viewColumns (z v : Var) : viewColumns (catView z [v]) = [v] := rfl

theorem crowd_columns (n : Nat) : columns (crowd n) = (List.range n).map fun i : Nat => 2 * (i : Int) := by
  unfold columns crowd
  dsimp only
  rw [List.flatMap_map]
  simp only [crowd_viewColumns]
  exact List.map_eq_flatMap.symm

theorem crowd_tidy {n : Nat} (hn : n ≠ 0) :
    Tidy ((List.range n).map fun i : Nat => 2 * (i : Int) + 1) 3 (whole (crowd n)) := by
  have hc : ∀ c ∈ (crowd n).cgpms, Tidy ((List.range n).map fun i : Nat => 2 * (i : Int) + 1) 2 c := by
    intro c hc
    obtain ⟨i, hi, rfl⟩ := List.mem_map.1 (show c ∈ (List.range n).map _ from hc)
    refine catView_tidy (by simp) (List.mem_map.2 ⟨i, hi, rfl⟩) ?_ rfl
    intro v hv hv'
    rw [List.mem_singleton.1 hv] at hv'
    obtain ⟨j, -, hj⟩ := List.mem_map.1 hv'
    have hj : 2 * (j : Int) + 1 = 2 * (i : Int) := hj
    omega
  refine .product (n := 2) (cs := (crowd n).cgpms) hc ?_ ?_
  · unfold crowd; simpa using hn
  · unfold Product.init
    rw [validate_of_nodup]
    · rfl
    · exact fun c h => (cgpmTLaws _ 2).inputs _ (tidy_reg (hc c h))
    · unfold crowd
      dsimp only
      rw [List.flatMap_map]
      simp only [crowd_outputs]
      rw [List.nodup_flatMap]
      refine ⟨fun i _ => ?_, ?_⟩
      · refine List.nodup_cons.2 ⟨fun h => ?_, by simp⟩
        have h : 2 * (i : Int) + 1 = 2 * (i : Int) := List.mem_singleton.1 h
        omega
      · refine List.Pairwise.imp_of_mem ?_ List.pairwise_lt_range
        intro a b _ _ hab x hx hy
        have hx : x = 2 * (a : Int) + 1 ∨ x = 2 * (a : Int) := by simpa using hx
        have hy : x = 2 * (b : Int) + 1 ∨ x = 2 * (b : Int) := by simpa using hy
        have key : ∀ c : Int, c = 2 * (a : Int) + 1 ∨ c = 2 * (a : Int) →
            c = 2 * (b : Int) + 1 ∨ c = 2 * (b : Int) → False := by omega
        exact key x hx hy

theorem crowd_crosscat (n : Nat) : IsCrosscat (crowd n) := by
  intro c hc
  obtain ⟨i, -, rfl⟩ := List.mem_map.1 (show c ∈ (List.range n).map _ from hc)
  exact ⟨_, _, rfl, rfl, rfl⟩

theorem crowd_plain (n : Nat) :
    ∀ v ∈ columns (crowd n), v ∉ (List.range n).map fun i : Nat => 2 * (i : Int) + 1 := by
  intro v hv hv'
  rw [crowd_columns] at hv
  obtain ⟨i, -, rfl⟩ := List.mem_map.1 hv
  obtain ⟨j, -, hj⟩ := List.mem_map.1 hv'
  have hj : 2 * (j : Int) + 1 = 2 * (i : Int) := hj
  omega

theorem crowd_view {n i : Nat} (h : i < n) : ∃ view, (crowd n).cgpms[i]? = some view ∧
    ∀ o ∈ [2 * (i : Int)], o ∈ viewColumns view :=
  ⟨catView (2 * (i : Int) + 1) [2 * (i : Int)], by unfold crowd; simp [h], fun o ho => ho⟩

end Cgpm2.Concrete
