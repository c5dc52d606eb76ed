import Verif.Lemmas.Printed
import Verif.Lemmas.BuiltLaws
import Verif.Lemmas.ConcreteTower

/-!
# C121 What the printed form of a CGPM tells
-/

namespace Cgpm2

namespace Concrete
open Spec

/-- A coin that holds 1 for a row. -/
noncomputable def coinOf (r : RowId) : Prim :=
  run (.bernoulli (Bernoulli.init [2] [] [] [])) [.observe r [(2, .num 1)] []]

/-- A CRP with one row at table 0. -/
noncomputable def crpFirst : Prim :=
  run (.crp (Crp.init [5] [] [] [])) [.observe (some 0) [(5, .num 0)] []]

/-- The CRP `crp3` after rows 0 and 1 have gone: one row at table 1. -/
noncomputable def crpSecond : Prim :=
  run (.crp (Crp.init [5] [] [] []))
    ([.observe (some 0) [(5, .num 0)] [], .observe (some 1) [(5, .num 0)] [],
      .observe (some 2) [(5, .num 1)] []] ++ [.unobserve (some 0), .unobserve (some 1)])

/-- The same states written out. -/
noncomputable def crpFirst' : Crp :=
  { outputs := [5], inputs := [], params := [], data := [(some 0, 0)], N := 1, counts := [(0, 1)],
    alpha := 1 }

noncomputable def crpSecond' : Crp :=
  { outputs := [5], inputs := [], params := [], data := [(some 2, 1)], N := 1, counts := [(1, 1)],
    alpha := 1 }

theorem crpFirst_eq : crpFirst = .crp crpFirst' := by
  have h0 : Crp.observe (some 0) [(5, .num 0)] [] (Crp.init [5] [] [] []) = _ :=
    Crp.observe_ok (o := 5) rfl (by simp [Crp.init]) (q := 0)
      (by simp [trunc0, Crp.support, Crp.init, pySorted])
  simp only [crpFirst, run, List.foldl_cons, List.foldl_nil, step, Prim.observe, Py.wrap, h0]
  simp [crpFirst', Crp.add, Crp.init, trunc0, Dict.set, Dict.get?]

theorem crpSecond_eq : crpSecond = .crp crpSecond' := by
  have e : crpSecond = run crp3 [.unobserve (some 0), .unobserve (some 1)] := by
    unfold crpSecond crp3 run
    rw [List.foldl_append]
  have h1 : Crp.unobserve (some 0) crp3' = (.ok ([(5, .num 0)], []),
      { crp3' with data := [(some 1, 0), (some 2, 1)], N := 2, counts := [(0, 1), (1, 1)] }) := by
    rfl
  have h2 : Crp.unobserve (some 1)
      { crp3' with data := [(some 1, 0), (some 2, 1)], N := 2, counts := [(0, 1), (1, 1)] } =
      (.ok ([(5, .num 0)], []), { crp3' with data := [(some 2, 1)], N := 1, counts := [(1, 1)] }) := by
    rfl
  rw [e, crp3_eq]
  simp only [run, List.foldl_cons, List.foldl_nil, step, Prim.unobserve, Py.wrap, h1, h2]
  rfl

end Concrete

namespace Props
open Spec

/-- Products of primitives other than CRPs that are printed alike give every query about a row that
they do not hold the same log density, or raise the same exception. -/
theorem C121_logpdf {n : Nat} {r : RowId} {c d : Cgpm n} (hc : Plain r n c) (hd : Plain r n d)
    (h : cgpmRender n c = cgpmRender n d) (ts cs ins : Dict Var Val) (g : Rng) :
    ((cgpmI n).logpdf r ts cs ins (c, g)).1 = ((cgpmI n).logpdf r ts cs ins (d, g)).1 :=
  (rel_printedAlike r n ts cs ins c d g (printedAlike_of hc hd h)).1

/-- Two coins that hold the same value for different rows, each beside a Normal variable. -/
example : ∃ c d : Cgpm 1, c ≠ d ∧ Plain none 1 c ∧ Plain none 1 d ∧
    cgpmRender 1 c = cgpmRender 1 d := by
  refine ⟨.product ⟨[Concrete.coinOf (some 0), (.normal Concrete.norm0 : Prim)]⟩,
    .product ⟨[Concrete.coinOf (some 1), (.normal Concrete.norm0 : Prim)]⟩, ?_, ?_, ?_, rfl⟩
  · intro h
    have h' : Concrete.coinOf (some 0) = Concrete.coinOf (some 1) := by
      injection h with h
      injection h with h
      injection h
    have := congrArg (fun p => Dict.keys (Prim.data p)) h'
    exact absurd this (by change ([some 0] : List RowId) ≠ [some 1]; decide)
  all_goals
    intro b hb
    rcases List.mem_cons.1 hb with rfl | hb
    · exact ⟨by change Prim.Kind.bernoulli ≠ .crp; decide, rfl⟩
    · rw [List.mem_singleton.1 hb]
      exact ⟨by change Prim.Kind.normal ≠ .crp; decide, rfl⟩

/-- Primitives other than NormalUC that are printed alike have the same score. -/
theorem C121_score {p q : Prim} (h : p.render = q.render) (hp : p.kind ≠ .normalUC) :
    p.logpdfScore = q.logpdfScore := prim_score h hp

/-- The printed form of a CRP does not name its tables: two CRPs are printed alike, and give table 0
different probabilities. -/
theorem C121_crp_violated : ∃ p q : Prim, LegallyReachable p ∧ LegallyReachable q ∧
    p.render = q.render ∧ p.logpdf none [(5, .num 0)] [] [] ≠ q.logpdf none [(5, .num 0)] [] [] := by
  refine ⟨Concrete.crpFirst, Concrete.crpSecond,
    ⟨_, _, Concrete.crp3_created, by simp [LegalHypers, Crp.init, Dict.get?], rfl⟩,
    ⟨_, _, Concrete.crp3_created, by simp [LegalHypers, Crp.init, Dict.get?], rfl⟩, ?_, ?_⟩
  · rw [Concrete.crpFirst_eq, Concrete.crpSecond_eq]
    rfl
  · rw [Concrete.crpFirst_eq, Concrete.crpSecond_eq]
    simp [Concrete.crpFirst', Concrete.crpSecond', Prim.logpdf, Crp.logpdf, Dict.keys, firstOutput, Dict.getItem, Dict.get?, pyInt,
      Concrete.trunc0, Crp.support, pySorted, pyMax, Crp.calcPredictiveLogp, pyLog, bind,
      Except.bind, pure, Except.pure]

/-- The printed form of a NormalUC has no sufficient statistics: two are printed alike, and have
different scores. -/
theorem C121_normalUC_violated : ∃ p q : Prim, LegallyReachable p ∧ LegallyReachable q ∧
    p.render = q.render ∧ p.logpdfScore ≠ q.logpdfScore := by
  have h0 : (Prim.normalUC Concrete.normUC0).logpdfScore = .ok (.fin 0) := by
    simp [Prim.logpdfScore, NormalUC.logpdfScore, Concrete.normUC0, pyLog, bind, Except.bind, pure,
      Except.pure]
  have h1 : Concrete.normUC1.logpdfScore =
      .ok (.fin (-(1 / 2) * Normal.log2pi - 25 / 8)) := by
    have e : Concrete.normUC1 = .normalUC { Concrete.normUC0 with
        data := [(some 0, .num (5/2))], N := 0 + 1, sumX := 0 + 5/2, sumXSq := 0 + 5/2 * (5/2) } := rfl
    rw [e]
    simp only [Prim.logpdfScore, NormalUC.logpdfScore, Concrete.normUC0, pyLog, bind, Except.bind,
      pure, Except.pure]
    norm_num
    ring
  refine ⟨.normalUC Concrete.normUC0, Concrete.normUC1,
    ⟨_, [], .normalUC Concrete.normUC0_created, by simp [LegalHypers, Concrete.normUC0], rfl⟩,
    Concrete.normUC1_legally, rfl, ?_⟩
  rw [h0, h1]
  intro h
  have h' : (0 : ℝ) = -(1 / 2) * Normal.log2pi - 25 / 8 := by
    simpa only [Except.ok.injEq, Fl.fin.injEq] using h
  have hpos : 0 < Normal.log2pi :=
    add_pos (Real.log_pos (by norm_num)) (Real.log_pos (by linarith [Real.pi_gt_three]))
  linarith

/-- The printed form of a flexible array does not show the base: two arrays without components are
printed alike, and give a missing value different probabilities. -/
theorem C121_array_violated (g : Rng) : ∃ c d : Cgpm 1, Built 1 c ∧ Built 1 d ∧
    cgpmRender 1 c = cgpmRender 1 d ∧ ((cgpmI 1).logpdf none [(3, .nan)] [] [(5, .num 0)] (c, g)).1 ≠
      ((cgpmI 1).logpdf none [(3, .nan)] [] [(5, .num 0)] (d, g)).1 := by
  let b : Prim := .bernoulli (Bernoulli.init [3] [] [] [])
  let k : Prim := .categorical (Categorical.init [3] [] [] [] 2)
  have hb : LegallyReachable b :=
    ⟨_, [], .bernoulli .., by simp [LegalHypers, Bernoulli.init, Dict.get?], rfl⟩
  have hk : LegallyReachable k :=
    ⟨_, [], .categorical .., by simp [LegalHypers, Categorical.init, Dict.get?], rfl⟩
  have hb0 : (cgpmI 0).logpdfScore b = .ok (.fin 0) := by
    simp [b, cgpmI, primI, Prim.logpdfScore, Bernoulli.logpdfScore, Bernoulli.init,
      Bernoulli.calcLogpdfMarginal, Dict.get?]
  have hk0 : (cgpmI 0).logpdfScore k = .ok (.fin 0) := by
    simp [k, cgpmI, primI, Prim.logpdfScore, Categorical.logpdfScore, Categorical.init,
      Categorical.calcLogpdfMarginal, Dict.get?]
    ring
  refine ⟨.flexArray (FlexArray.init b 5), .flexArray (FlexArray.init k 5),
    .flexArray (.prim0 hb) hb0, .flexArray (.prim0 hk) hk0, rfl, ?_⟩
  have e1 : ((cgpmI 1).logpdf none [(3, .nan)] [] [(5, .num 0)]
      ((.flexArray (FlexArray.init b 5) : Node Prim), g)).1 = .ok .ninf := rfl
  have e2 : ((cgpmI 1).logpdf none [(3, .nan)] [] [(5, .num 0)]
      ((.flexArray (FlexArray.init k 5) : Node Prim), g)).1 = .ok (.fin 0) := rfl
  intro h
  exact absurd (e1.symm.trans (h.trans e2)) (by simp)

end Props
end Cgpm2
