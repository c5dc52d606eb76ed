import Verif.Lemmas.ConcreteClusterings
import Verif.Spec.JointPosterior

/-!
# A CrossCat with two rows and grids of two points (helpers for the examples)
-/

namespace Cgpm2.Concrete
open Spec Views Cpp

noncomputable def twoGrids : Dict (Option Var) (Dict String (List ℝ)) := [(none, [("alpha", [1, 2])]), (some 1, [("alpha", [1, 2])])]

theorem five_grid {v : View} (hv : (cgpmI 2).outputs v = [5, 1]) {p : Prim} (hp : Of5 p) {o : Var} (ho : p.outputs = [o]) :
    gridsAt twoGrids v o = some [("alpha", [1, 2])] ∧ hyperNames p.kind = ["alpha"] ∧ p.kind ≠ .normalUC ∧ p.getHypers = [("alpha", 1)] := by
  unfold gridsAt
  rw [hv]
  rcases hp with hp | hp
  · rcases p with p | p | p | p | p | p <;> try (exact hp.elim)
    obtain ⟨h1, h2⟩ := hp
    have e : [(5 : Var)] = [o] := h1.trans ho
    cases e
    refine ⟨by simp [twoGrids, Dict.get?], rfl, by simp [Prim.kind], ?_⟩
    change [("alpha", p.alpha)] = _
    rw [← h2]
    rfl
  · rcases p with p | p | p | p | p | p <;> try (exact hp.elim)
    obtain ⟨h1, h2, -⟩ := hp
    have e : [(1 : Var)] = [o] := h1.trans ho
    cases e
    refine ⟨by simp [twoGrids, Dict.get?], rfl, by simp [Prim.kind], ?_⟩
    change [("alpha", p.alpha)] = _
    rw [← h2]
    rfl

theorem five_legal : ∀ n ∈ ["alpha"], LegalGrid [("alpha", [(1 : ℝ), 2])] n := by
  intro n hn
  rw [List.mem_singleton.1 hn]
  exact ⟨[1, 2], by simp [Dict.get?], by simp, fun v hv _ => by
    rcases List.mem_cons.1 hv with rfl | hv
    · norm_num
    · rw [List.mem_singleton.1 hv]; norm_num⟩

theorem together_gridded : Gridded twoGrids together := by
  intro p hp o ho
  obtain ⟨h1, h2, h3, -⟩ := five_grid (v := together) rfl (duo5_prims p hp) ho
  exact ⟨h3, _, h1, by rw [h2]; rfl, by rw [h2]; exact five_legal⟩

/-- The CrossCat with the one view. -/
noncomputable def pairTogether : Crosscat := ⟨[together]⟩
noncomputable def pairApart : Crosscat := ⟨[apart]⟩

theorem pair_samplable : Samplable [5] twoGrids pairTogether where
  built := rfl
  some := by simp [pairTogether]
  tidy v hv := by rw [List.mem_singleton.1 hv]; exact duo5_tidy
  views v hv := by rw [List.mem_singleton.1 hv]; exact duo5_view
  columns o ho := by
    have ho : o ∈ [(1 : Var)] := ho
    rw [List.mem_singleton.1 ho]
    decide
  known v hv := by rw [List.mem_singleton.1 hv]; exact together_known
  gridded v hv := by rw [List.mem_singleton.1 hv]; exact together_gridded

theorem five_type {p q : Prim} (hp : Of5 p) (hq : Of5 q) (h : p.outputs = q.outputs) : SameType p q := by
  have := of5_same hp hq h
  rcases p with p | p | p | p | p | p <;> rcases q with q | q | q | q | q | q <;> try (exact this.elim)
  all_goals first
    | rfl
    | exact this.2.1
    | exact this.2.2

theorem five_onGrid {v : View} (hv : ∀ p ∈ primsIn 2 v, Of5 p) : ∀ q ∈ primsIn 2 v, ∀ o, q.outputs = [o] → ∀ grid,
    gridsAt twoGrids together o = some grid → List.Forall₂ (fun kg kv => kv.1 = kg.1 ∧ kv.2 ∈ kg.2) grid q.getHypers := by
  intro q hq o ho grid hg
  obtain ⟨h1, -, -, h2⟩ := five_grid (v := together) rfl (hv q hq) ho
  rw [h1] at hg
  cases hg
  rw [h2]
  exact .cons ⟨rfl, List.mem_cons_self⟩ .nil

theorem pair_self : Variants [5] twoGrids pairTogether pairTogether :=
  .cons ⟨duo5_tidy, duo5_view, rfl, fun p hp q hq => five_type (duo5_prims p hp) (duo5_prims q hq), fun _ => Iff.rfl,
    fun _ _ _ _ => rfl, fun p hp q hq => of5_same (duo5_prims p hp) (duo5_prims q hq), five_onGrid duo5_prims⟩ .nil

theorem pair_apart : Variants [5] twoGrids pairTogether pairApart := by
  refine .cons ⟨split5_tidy, split5_view, rfl, fun p hp q hq => five_type (duo5_prims p hp) (split5_prims q hq), fun r => ?_,
    fun g r o ho => duo5_split5.cells g r o ho, fun p hp q hq => of5_same (split5_prims p hp) (split5_prims q hq),
    five_onGrid split5_prims⟩ .nil
  rw [together_mates, apart_mates]
  simp

theorem pair_differ : ¬ SameStates pairTogether pairApart := by
  intro h
  have h : List.Forall₂ SameState [together] [apart] := h
  cases h with
  | cons h _ =>
    have := (h.1 (some 0) (some 1)).1 ((together_mates _ _).2 ⟨.inl rfl, .inr rfl⟩)
    rw [apart_mates] at this
    simp at this

end Cgpm2.Concrete
