import Verif.Lemmas.Concrete
import Verif.Lemmas.BuiltLaws
import Verif.Props.PrimScore

/-!
# Concrete composites, used by the `example`s beside the theorems (helpers)
-/

namespace Cgpm2.Concrete
open Spec Props

/-- A block with a normal column 3 and a categorical column 1. -/
noncomputable def block2 : Product Prim :=
  ⟨[.normal norm0, .categorical (Categorical.init [1] [] [] [] 3)]⟩

theorem norm0_legally : LegallyReachable (.normal norm0) :=
  ⟨_, [], .normal norm0_created, by simp [LegalHypers, norm0], rfl⟩

theorem cat0_legally : LegallyReachable (.categorical (Categorical.init [1] [] [] [] 3)) :=
  ⟨_, [], .categorical .., by simp [LegalHypers, Categorical.init, Dict.get?], rfl⟩

theorem crp0_legally : LegallyReachable (.crp (Crp.init [5] [] [] [])) :=
  ⟨_, [], .crp .., by simp [LegalHypers, Crp.init, Dict.get?], rfl⟩

theorem block2_init : Product.init primI
    [.normal norm0, .categorical (Categorical.init [1] [] [] [] 3)] = .ok block2 := by
  simp [Product.init, Product.validate, primI, Prim.outputs, Prim.inputs, norm0,
    Categorical.init, bind, Except.bind, pure, Except.pure, block2]

theorem block2_built : Built 1 (.product block2 : Node Prim) :=
  .product (n := 0) (cs := [.normal norm0, .categorical (Categorical.init [1] [] [] [] 3)])
    (by
      intro c hc
      rcases List.mem_cons.1 hc with rfl | hc
      · exact .prim0 norm0_legally
      · rw [List.mem_singleton.1 hc]
        exact .prim0 cat0_legally)
    block2_init

theorem block2_score : (cgpmI 1).logpdfScore (.product block2 : Node Prim) = .ok (.fin 0) := by
  have h1 := C13_fresh (.normal norm0_created) (by simp [LegalHypers, norm0])
  have h2 := C13_fresh (.categorical 1 [] [] [] 3)
    (by simp [LegalHypers, Categorical.init, Dict.get?])
  change Product.logpdfScore primI block2 = _
  simp only [Product.logpdfScore, block2, primI]
  rw [List.mapM_cons, List.mapM_cons, h1, h2]
  simp only [List.mapM_nil, bind, Except.bind, pure, Except.pure, Fl.sum_eq]
  have h0 : (Fl.fin 0) = (0 : Fl) := rfl
  rw [h0]
  simp

/-- A view: a flexible mixture of such blocks, its rows divided by a CRP. -/
noncomputable def view : FlexMix (Node Prim) :=
  ⟨.crp (Crp.init [5] [] [] []), FlexArray.init (.product block2) 5, []⟩

theorem view_built : Built 2 (.flexMix view : Node (Node Prim)) :=
  .flexMix (n := 1) crp0_legally block2_built block2_score
    rfl

/-- The view after two rows were observed. -/
noncomputable def view2 (g g' : Rng) : Cgpm 2 :=
  (ask (cgpmI 2) (.observe (some 1) [(5, .num 0), (1, .num 2)] [])
    ((ask (cgpmI 2) (.observe (some 0) [(3, .num (1/2)), (1, .nan)] [])
      ((.flexMix view : Node (Node Prim)), g)).2.1, g')).2.1

theorem view2_built (g g' : Rng) : Built 2 (view2 g g') :=
  .call (.call view_built _ _) _ _

end Cgpm2.Concrete
