import Verif.Lemmas.Walks
import Verif.Lemmas.ConcreteRows
import Verif.Lemmas.ConcreteCrosscat
import Verif.Lemmas.TidyLaws

/-!
# Property C36: walks find the primitives of a column
-/

namespace Cgpm2.Props
open Spec Concrete

/-- C36: for an output `o` of a model, `get_cgpms_by_output_index` returns the primitives inside
the model whose only output is `o`, all of them and in order. -/
theorem C36_walk (Z : List Var) (n : Nat) (c : Cgpm n) (h : Tidy Z n c) (o : Var)
    (ho : o ∈ (cgpmI n).outputs c) :
    ∃ refs, cgpmsByOutput n c o = .ok refs ∧
      refs.objs = (primsIn n c).filter (fun p => decide (p.outputs = [o])) := by
  obtain ⟨r, h1, h2⟩ := (cgpm_walk Z n c (tidy_reg h)).walk o ho
  exact ⟨r, h1, h2.objs⟩

/-- C36: what is returned are the objects themselves: when they are changed, just those primitives
of the model are changed, and when they are not, nothing is. -/
theorem C36_references (Z : List Var) (n : Nat) (c : Cgpm n) (h : Tidy Z n c) (o : Var)
    (ho : o ∈ (cgpmI n).outputs c) (refs : Refs (Cgpm n)) (hr : cgpmsByOutput n c o = .ok refs) :
    refs.put refs.objs = c ∧ ∀ l, l.length = refs.objs.length →
      primsIn n (refs.put l) = fill o l (primsIn n c) := by
  obtain ⟨r, h1, h2⟩ := (cgpm_walk Z n c (tidy_reg h)).walk o ho
  rw [h1] at hr
  cases hr
  exact ⟨h2.same, h2.fill⟩

/-- C36: at least one primitive is returned. -/
theorem C36_found (Z : List Var) (n : Nat) (c : Cgpm n) (h : Tidy Z n c) :
    (∀ p ∈ primsIn n c, ∃ o ∈ (cgpmI n).outputs c, p.outputs = [o]) ∧
    ∀ o ∈ (cgpmI n).outputs c, ∃ p ∈ primsIn n c, p.outputs = [o] :=
  ⟨(cgpm_walk Z n c (tidy_reg h)).sub, cgpm_covers Z n c (tidy_reg h)⟩

/-- The hypotheses are met by a product of two mixtures; column 1 has a copy in each cluster of
the first. -/
example : (∃ refs, cgpmsByOutput 3 (.product twoViews : Node (Node (Node Prim))) 1 = .ok refs ∧
      refs.objs = (primsIn 3 (.product twoViews : Node (Node (Node Prim)))).filter
        (fun p => decide (p.outputs = [1]))) ∧
    ((primsIn 3 (.product twoViews : Node (Node (Node Prim)))).filter
      (fun p => decide (p.outputs = [1]))).length = 2 :=
  ⟨C36_walk [5, 6] 3 _ twoViews_tidy 1 (by decide), rfl⟩

/-- The hypotheses are met by a flexible mixture holding two rows in two clusters. -/
example : (cgpmsByOutput 1 (.flexMix two : Node Prim) 1).map (·.objs) =
    .ok [.categorical cat1, .categorical cat2, .categorical (Categorical.init [1] [] [] [] 3)] := rfl

end Cgpm2.Props
