import Verif.Lemmas.Ordered
import Verif.Lemmas.BuiltLaws
import Verif.Lemmas.ConcreteTower

/-!
# Property C77: the order in which a dictionary lists its entries does not matter
-/

namespace Cgpm2.Props
open Spec

/-- Two programs that make the same calls, except that the dictionaries they pass list their
entries in a different order, get the same answers, in the same random state, from every model. -/
theorem C77 {n : Nat} {c : Cgpm n} (h : Built n c) {as bs : List Ask}
    (hab : List.Forall₂ SameAsk as bs) (g : Rng) :
    answers (cgpmI n) as (c, g) = answers (cgpmI n) bs (c, g) :=
  answers_same (cgpmLaws n) (cgpmOrdered n) hab ((cgpmLaws n).refl c (built_inv h)) g

/-- Observing a row and asking for a density, with the entries written in another order. -/
example (g g' : Rng) : Built 2 (Concrete.view2 g g') ∧
    List.Forall₂ SameAsk
      [.observe (some 7) [(3, .num 1), (1, .num 0), (5, .num 0)] [],
        .logpdf none [(1, .num 2), (3, .num 4)] [(5, .num 0)] []]
      [.observe (some 7) [(5, .num 0), (3, .num 1), (1, .num 0)] [],
        .logpdf none [(3, .num 4), (1, .num 2)] [(5, .num 0)] []] := by
  refine ⟨Concrete.view2_built g g', .cons (.observe _ ⟨by simp [Dict.keys], ?_⟩ .empty)
    (.cons (.logpdf _ ⟨by simp [Dict.keys], .swap ..⟩ (.single _ _) .empty) .nil)⟩
  exact ((List.Perm.swap _ _ _).cons _).trans (.swap _ _ _)

end Cgpm2.Props
