import Verif.Lemmas.ViewLaw
import Verif.Lemmas.ConcreteViews
import Verif.Spec.ViewLaw

/-!
# A column that is alone in its view, in the concrete CrossCat
-/

namespace Cgpm2.Concrete
open Spec Views Cpp

theorem viewA_prims : primsIn 2 (.flexMix viewA : Node (Node Prim)) = 
    [viewA.rowDivide, catWith 1 [(0, 2)], catWith 2 [(0, 1)], catWith 1 [(1, 1)], catCol 2, catCol 1, catCol 2] := rfl
theorem viewB_prims : primsIn 2 (.flexMix viewB : Node (Node Prim)) = [viewB.rowDivide, catWith 3 [(0, 1), (1, 0)], catCol 3] := rfl

theorem ccat_shared : SharedHypers ccat := by
  intro v hv p hp q hq e
  have hv : v ∈ [(.flexMix viewA : Node (Node Prim)), (.flexMix viewB : Node (Node Prim))] := hv
  rcases List.mem_cons.1 hv with rfl | hv
  · rw [viewA_prims] at hp hq
    simp only [List.mem_cons, List.not_mem_nil, or_false] at hp hq
    rcases hp with rfl | rfl | rfl | rfl | rfl | rfl | rfl <;> rcases hq with rfl | rfl | rfl | rfl | rfl | rfl | rfl <;>
      first
      | exact .rfl' _
      | exact ⟨rfl, rfl, rfl⟩
      | (injection e with e; cases e)
  · rw [List.mem_singleton.1 hv, viewB_prims] at hp hq
    simp only [List.mem_cons, List.not_mem_nil, or_false] at hp hq
    rcases hp with rfl | rfl | rfl <;> rcases hq with rfl | rfl | rfl <;>
      first
      | exact .rfl' _
      | exact ⟨rfl, rfl, rfl⟩
      | (injection e with e; cases e)

noncomputable def viewA'' : FlexMix (Node Prim) :=
  { viewA with array := { viewA.array with
      base := .product ⟨[catCol 1, catCol 2, catCol 3]⟩
      cgpms := [(.num 0, .product ⟨[catWith 1 [(0, 2)], catWith 2 [(0, 1)], catWith 3 [(0, 1)]]⟩),
        (.num 1, .product ⟨[catWith 1 [(1, 1)], catCol 2, catWith 3 [(1, 0)]]⟩)] } }
noncomputable def ccat'' : Crosscat := ⟨[(.flexMix viewA'' : Node (Node Prim))]⟩
theorem ccat_proposals3 (g : Rng) : proposals [3] 0 (ccat, g) =
    (.ok [(.flexMix viewA'' : Node (Node Prim)), (.flexMix viewB : Node (Node Prim))], (ccat, g)) := rfl
theorem ccat_settle3 : settle ccat [3] [(.flexMix viewA'' : Node (Node Prim)), (.flexMix viewB : Node (Node Prim))] 1 0 =
    .ok ccat'' := rfl
theorem ccat_settle4 (v) : settle ccat [3] [v, (.flexMix viewB : Node (Node Prim))] 1 1 =
    .ok ccat := rfl

theorem viewB_crp : viewB.rowDivide.score = -Real.log 2 := by
  change Crp.score _ = _
  unfold Crp.score
  have e : Crp.seated ⟨[6], [], [], [(some 0, 0), (some 1, 0)], 2, [(0, 2)], 1⟩ 0 = 2 := rfl
  have g1 : gammaln 1 = 0 := by simp [gammaln]
  have g2 : gammaln 2 = 0 := by simp [gammaln]
  have g3 : gammaln (2 + 1) = Real.log 2 := by
    unfold gammaln
    rw [Real.Gamma_add_one (by norm_num)]; simp
  simp [Crp.init, e, g1, g2, g3]

theorem viewB_excess {d c : ℝ} (h1 : dataLogp (.flexMix viewB : Node (Node Prim)) 3 = .ok (.fin d))
    (h2 : (cgpmI 2).logpdfScore (.flexMix viewB : Node (Node Prim)) = .ok (.fin (d + c))) : c = -Real.log 2 := by
  have hc := cc_of_tidy ccat_tidy ccat_crosscat ccat_plain
  have hm : (.flexMix viewB : Node (Node Prim)) ∈ ccat.cgpms := List.mem_cons_of_mem _ List.mem_cons_self
  rw [dataLogp_eq (hc.viewReg hm) (by change (3 : Var) ∈ [6, 3]; simp), viewB_prims] at h1
  rw [view_score (hc.viewReg hm) (hc.views _ hm), viewB_prims] at h2
  have f : ([viewB.rowDivide, catWith 3 [(0, 1), (1, 0)], catCol 3].filter fun p => decide (p.outputs = [3])) =
    [catWith 3 [(0, 1), (1, 0)], catCol 3] := rfl
  rw [f] at h1
  injection h1 with h1
  injection h1 with h1
  injection h2 with h2
  injection h2 with h2
  simp only [List.map_cons, List.map_nil, List.sum_cons, List.sum_nil, viewB_crp] at h1 h2
  linarith

theorem ccat_outcomes {g : Rng} {y : Crosscat} (h : (transitionViewAssignments [3] 0 (ccat, g)).1 = .ok y) :
    y = ccat ∨ y = ccat'' := by
  have hc := cc_of_tidy ccat_tidy ccat_crosscat ccat_plain
  have hl : ∃ l : List Fl, [(.flexMix viewA'' : Node (Node Prim)), (.flexMix viewB : Node (Node Prim))].mapM
      (fun view => dataLogp view 3) = .ok l ∧ l.length = 2 := by
    rcases hl : [(.flexMix viewA'' : Node (Node Prim)), (.flexMix viewB : Node (Node Prim))].mapM
      (fun view => dataLogp view 3) with e | l
    · exfalso
      cases hl
    · exact ⟨l, rfl, (mapM_ok_forall hl).length_eq.symm⟩
  obtain ⟨l, hl, hn⟩ := hl
  rw [transition_eval (k := 1) (v0 := (.flexMix viewB : Node (Node Prim))) hc rfl (by change (3 : Var) ∈ [3]; simp)
    (ccat_proposals3 g) hl] at h
  obtain ⟨i, hi, hs⟩ := h
  have := logPflipIdx_lt hi
  rw [hn] at this
  have : i = 0 ∨ i = 1 := by omega
  rcases this with rfl | rfl
  · rw [ccat_settle3] at hs
    exact .inr (Except.ok.inj hs).symm
  · exact .inl (Except.ok.inj ((ccat_settle4 _).symm.trans hs)).symm

end Cgpm2.Concrete
