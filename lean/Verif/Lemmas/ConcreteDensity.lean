import Verif.Lemmas.TowerDensity
import Verif.Lemmas.ConcreteTable
import Verif.Lemmas.TidyLaws

/-!
# Concrete queries, used by the `example`s beside the theorems (helpers)
-/

namespace Cgpm2.Concrete
open Spec

/-- A query: column 3, cluster 1 and column 1. -/
def query0 : Dict Var Val := [(3, .num (1/2)), (5, .num 1), (1, .num 2)]

theorem block2_askable (v : Var) (x : Val) : Askable 1 (.product block2 : Node Prim) v x :=
  block2_all (P := fun c => v ∈ c.outputs → c.kind = .crp → x ≠ .nan) (fun _ h => nomatch h)
    (fun _ h => nomatch h)

theorem block2_noMixture : NoMixture 1 (.product block2 : Node Prim) := fun _ _ => trivial

theorem block2_plausible {kv : Var × Val} (h : kv.1 = 1 → kv.2 = .num 2) :
    Plausible 1 (.product block2 : Node Prim) kv.1 kv.2 := by
  refine block2_all (P := fun c => kv.1 ∈ c.outputs →
    Accepts c kv.2 ∧ (kv.2 = .nan → c.kind ≠ .bernoulli ∧ c.kind ≠ .poisson)) (fun _ => ?_) fun hv => ?_
  · exact ⟨by rcases kv.2 with _ | _ <;> trivial, fun _ => ⟨nofun, nofun⟩⟩
  · have hv : kv.1 = 1 := by simpa [Prim.outputs, Categorical.init] using hv
    rw [h hv]
    exact ⟨⟨2, by simp [Categorical.init], by simp⟩, nofun⟩

theorem finView_cluster {kv : Var × Val} (h : kv.1 = 5 → kv.2 = .num 1) :
    kv.1 ∈ finView.rowDivide.outputs → IsCluster finView.rowDivide kv.2 := by
  intro hv
  have hv : kv.1 = 5 := by simpa [Prim.outputs, Bernoulli.init, finView] using hv
  exact ⟨[0, 1], 1, rfl, by simp, by rw [h hv]; simp⟩

theorem finView_plausible {kv : Var × Val} (h : kv ∈ query0) :
    Plausible 2 (.finMix finView : Node (Node Prim)) kv.1 kv.2 := by
  simp only [query0, List.mem_cons, List.not_mem_nil, or_false] at h
  refine ⟨finView_cluster ?_, finView_all (P := fun c => Plausible 1 c kv.1 kv.2)
    (block2_plausible ?_)⟩ <;> rcases h with rfl | rfl | rfl <;> simp

theorem finView_askable {kv : Var × Val} (h : kv.1 = 5 → kv.2 = .num 1) :
    Askable 2 (.finMix finView : Node (Node Prim)) kv.1 kv.2 :=
  ⟨finView_cluster h, finView_all (P := fun c => (NoMixture 1 c ∧ Askable 1 c kv.1 kv.2) ∨
    Plausible 1 c kv.1 kv.2) (.inl ⟨block2_noMixture, block2_askable _ _⟩)⟩

theorem finView_query : Query 2 (.finMix finView : Node (Node Prim)) [(3, .num (1/2))]
    [(5, .num 1), (1, .num 2)] :=
  ⟨by decide, by
    change ∀ kv ∈ (_ : Dict Var Val), kv.1 ∈ [5, 3, 1]
    simp, fun kv hkv => finView_askable (by
      simp only [List.cons_append, List.nil_append, List.mem_cons, List.not_mem_nil, or_false] at hkv
      rcases hkv with rfl | rfl | rfl <;> simp)⟩

theorem finView_query' : Query 2 (.finMix finView : Node (Node Prim)) [(3, .nan)] [(1, .num 2)] :=
  ⟨by decide, by
    change ∀ kv ∈ (_ : Dict Var Val), kv.1 ∈ [5, 3, 1]
    simp, fun kv hkv => finView_askable (by
      simp only [List.cons_append, List.nil_append, List.mem_cons, List.not_mem_nil, or_false] at hkv
      rcases hkv with rfl | rfl <;> simp)⟩

theorem finView_mixture : IsMixture (n := 2) (.finMix finView : Node (Node Prim)) 5 [0, 1] := ⟨rfl, rfl⟩

/-! ## A mixture of mixtures -/

section
variable {Z : List Var}

theorem block2_tidy' (h3 : (3 : Var) ∉ Z) (h1 : (1 : Var) ∉ Z) : Tidy Z 1 (.product block2 : Node Prim) :=
  .product (n := 0) (cs := [.normal norm0, .categorical (Categorical.init [1] [] [] [] 3)])
    (by
      intro c hc
      rcases List.mem_cons.1 hc with rfl | hc
      · exact .prim0 norm0_legally (by simp [Prim.inputs, norm0])
          (by simp [Prim.outputs, norm0, Prim.kind, h3])
      · rw [List.mem_singleton.1 hc]
        exact .prim0 cat0_legally rfl (by simp [Prim.outputs, Categorical.init, Prim.kind, h1]))
    (by simp) block2_init

theorem view_tidy' (h3 : (3 : Var) ∉ Z) (h1 : (1 : Var) ∉ Z) (h5 : (5 : Var) ∈ Z) :
    Tidy Z 2 (.flexMix view : Node (Node Prim)) :=
  .flexMix (n := 1) crp0_legally rfl (.inl rfl) (by simp [Prim.outputs, Crp.init, h5]) rfl
    (block2_tidy' h3 h1) block2_empty block2_score
    (by rw [block2_outputs]; simp [Prim.outputs, Crp.init])
    rfl

end

/-- A finite mixture, with cluster variable 6, of two flexible mixtures with cluster variable 5. -/
noncomputable def deepView : FinMix (Node (Node Prim)) :=
  ⟨.bernoulli (Bernoulli.init [6] [] [] []), ⟨[.flexMix view, .flexMix view], 6, []⟩, []⟩

theorem bern6_legally : LegallyReachable (.bernoulli (Bernoulli.init [6] [] [] [])) :=
  ⟨_, [], .bernoulli .., by simp [LegalHypers, Bernoulli.init, Dict.get?], rfl⟩

theorem deepView_tidy : Tidy [5, 6] 3 (.finMix deepView : Node (Node (Node Prim))) := by
  have hall : ∀ c ∈ [(.flexMix view : Node (Node Prim)), .flexMix view], c = .flexMix view := by
    simp
  refine .finMix (n := 2) (cs := [(.flexMix view : Node (Node Prim)), .flexMix view]) bern6_legally rfl
    (.inr rfl) (by simp [Prim.outputs, Bernoulli.init]) rfl ?_ ?_ ?_ ?_ rfl
  · intro c hc; rw [hall c hc]; exact view_tidy' (by decide) (by decide) (by decide)
  · intro c hc; rw [hall c hc]; exact view_empty
  · intro c hc c' hc'; rw [hall c hc, hall c' hc']
  · intro c hc; rw [hall c hc, view_outputs]; simp [Prim.outputs, Bernoulli.init]

theorem deepView_empty (r : RowId) :
    HoldsNothing (cgpmI 3) (.finMix deepView : Node (Node (Node Prim))) r := by
  refine (holdsNothing_iff (cgpmTLaws [5, 6] 3) (tidy_reg deepView_tidy) r).2 fun v => ?_
  change (if v = deepView.indexer then none else none) = (none : Option Val)
  split <;> rfl

/-- A query: column 3, both clusters and column 1. -/
def query1 : Dict Var Val := [(3, .num (1/2)), (6, .num 1), (5, .num 0), (1, .num 2)]

theorem deepView_plausible {kv : Var × Val} (h : kv ∈ query1) :
    Plausible 3 (.finMix deepView : Node (Node (Node Prim))) kv.1 kv.2 := by
  have hb : kv.1 = 1 → kv.2 = .num 2 := by
    simp only [query1, List.mem_cons, List.not_mem_nil, or_false] at h
    rcases h with rfl | rfl | rfl | rfl <;> simp
  have h5 : kv.1 = 5 → kv.2 = .num 0 := by
    simp only [query1, List.mem_cons, List.not_mem_nil, or_false] at h
    rcases h with rfl | rfl | rfl | rfl <;> simp
  have h6 : kv.1 = 6 → kv.2 = .num 1 := by
    simp only [query1, List.mem_cons, List.not_mem_nil, or_false] at h
    rcases h with rfl | rfl | rfl | rfl <;> simp
  have hv : Plausible 2 (.flexMix view : Node (Node Prim)) kv.1 kv.2 := by
    refine ⟨fun hv => ?_, fun c hc => ?_⟩
    · have hv : kv.1 = 5 := by simpa [Prim.outputs, Crp.init, view] using hv
      exact ⟨[0], 0, rfl, by simp, by rw [h5 hv]; simp⟩
    · have hc : c = .product block2 := List.mem_singleton.1 hc
      rw [hc]
      exact block2_plausible hb
  refine ⟨fun hv => ?_, fun c hc => ?_⟩
  · have hv : kv.1 = 6 := by simpa [Prim.outputs, Bernoulli.init, deepView] using hv
    exact ⟨[0, 1], 1, rfl, by simp, by rw [h6 hv]; simp⟩
  · have hc : c ∈ [(.flexMix view : Node (Node Prim)), .flexMix view] := hc
    have hc : c = .flexMix view := by
      rcases List.mem_cons.1 hc with h | h
      · exact h
      · exact List.mem_singleton.1 h
    rw [hc]
    exact hv

theorem deepView_askable {kv : Var × Val} (h : kv ∈ query1) :
    Askable 3 (.finMix deepView : Node (Node (Node Prim))) kv.1 kv.2 :=
  ⟨(deepView_plausible h).1, fun c hc => .inr ((deepView_plausible h).2 c hc)⟩

end Cgpm2.Concrete
