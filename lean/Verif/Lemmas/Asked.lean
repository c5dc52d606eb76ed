import Verif.Lemmas.ObserveTotal
import Verif.Props.Samples

/-!
# Questions to the chains of an ensemble (helpers)
-/

namespace Cgpm2.Views
open Spec

/-- What the components of a view look like. -/
theorem comp_flat {Z : List Var} {x : Crosscat} (h : CC Z x) {v : View} (hv : v ∈ x.cgpms) {m : FlexMix (Cgpm 1)}
    {p : Product (Cgpm 0)} (hf : Flat v m p) {c : Cgpm 1} (hc : c ∈ m.array.base :: Dict.values m.array.cgpms) :
    ∃ p' : Product (Cgpm 0), c = (.product p' : Node (Cgpm 0)) ∧ ∀ q ∈ p'.cgpms, ∀ a ∈ Prim.outputs q,
      OfColumn x a q ∧ a ∈ columns x := by
  have hreg := h.viewReg hv
  have hprims : ∀ q ∈ primsIn 1 c, q ∈ primsIn 3 (whole x) := by
    intro q hq
    refine List.mem_flatMap.2 ⟨v, hv, ?_⟩
    rw [hf.eq]
    refine List.mem_cons_of_mem _ (List.mem_append.2 ?_)
    rcases List.mem_cons.1 hc with rfl | hc
    · exact .inr hq
    · exact .inl (List.mem_flatMap.2 ⟨c, hc, hq⟩)
  have hcr : (cgpmTab Z 1).Reg c ∧ (cgpmSem 1).shape c = (cgpmSem 1).shape m.array.base ∧
      (cgpmI 1).outputs c = (cgpmI 1).outputs m.array.base := by
    rw [hf.eq] at hreg
    have hreg : MixReg _ _ _ _ _ _ _ m := hreg
    have hbase := (flexMix_base (cgpmLaws 1) (cgpmTLaws Z 1) (m := m) hreg).1
    rcases List.mem_cons.1 hc with rfl | hc
    · exact ⟨hbase, rfl, rfl⟩
    · obtain ⟨⟨k, c'⟩, hk, rfl⟩ := List.mem_map.1 hc
      have hget := Dict.get?_of_mem hreg.inv.2.1.2.2.1 hk
      have e : m.array.comp (cgpmSem 1) k = c' := by rw [FlexArray.comp, hget]; rfl
      have h1 := hreg.inv.2.1.2.1 k
      have h2 := (hreg.comp k _ rfl).1
      rw [e] at h1 h2
      have hs := congrArg (fun x => x) h1.2.2
      exact ⟨h2, hs, (cgpmFrame Z 1).outs _ _ h2 hbase hs⟩
  obtain ⟨hr, hs, ho⟩ := hcr
  rw [hf.base] at hs ho
  rcases c with q | p' | a | a | m' | m'
  · cases hs
  · refine ⟨p', rfl, fun q hq a ha => ?_⟩
    have hin := hprims q (List.mem_flatMap.2 ⟨q, hq, List.mem_singleton.2 rfl⟩)
    obtain ⟨a', ha'⟩ := (show (q : Prim).Inv from (hr.1 q hq).1.1).out
    rw [ha', List.mem_singleton] at ha
    subst ha
    refine ⟨⟨hin, ha'⟩, mem_columns.2 ⟨v, hv, ?_⟩⟩
    unfold viewColumns
    rw [hf.outputs]
    have h3 : a ∈ (cgpmI 1).outputs (.product p' : Node (Cgpm 0)) :=
      List.mem_flatMap.2 ⟨q, hq, by rw [show (cgpmI 0).outputs q = [a] from ha']; simp⟩
    rw [ho] at h3
    exact h3
  · exact hr.elim
  · exact hr.elim
  · cases hs
  · cases hs

/-- A cluster variable is not a column. -/
theorem not_cluster {Z : List Var} {x : Crosscat} (h : CC Z x) {v : View} (hv : v ∈ x.cgpms) {m : FlexMix (Cgpm 1)}
    {p : Product (Cgpm 0)} (hf : Flat v m p) {a : Var} (ha : a ∈ columns x) : a ∉ m.rowDivide.outputs := by
  intro hm
  have hreg := h.viewReg hv
  rw [hf.eq] at hreg
  have hreg : MixReg _ _ _ _ _ _ _ m := hreg
  rw [hf.out, List.mem_singleton] at hm
  exact h.plain a ha (hm ▸ hreg.x_mem)

theorem askable_cell {Z : List Var} {x : Crosscat} (h : CC Z x) {a : Var} (ha : a ∈ columns x) (y : Val) :
    Askable 3 (whole x) a y := by
  intro v hv
  obtain ⟨m, p, hf⟩ := flat_of_reg (h.viewReg hv) (h.views v hv)
  rw [hf.eq]
  refine ⟨fun hm => absurd hm (not_cluster h hv hf ha), fun c hc => .inl ?_⟩
  obtain ⟨p', rfl, hp⟩ := comp_flat h hv hf hc
  refine ⟨fun q _ => trivial, fun q hq hin hk => ?_⟩
  exact absurd hk (column_kind h ha (hp q hq a hin).1)

theorem plausible_cell {Z : List Var} {x : Crosscat} (h : CC Z x) {a : Var} (ha : a ∈ columns x) {y : Val}
    (hy : ∀ p, OfColumn x a p → Accepts p y ∧ (y = .nan → p.kind ≠ .bernoulli ∧ p.kind ≠ .poisson)) :
    Plausible 3 (whole x) a y := by
  intro v hv
  obtain ⟨m, p, hf⟩ := flat_of_reg (h.viewReg hv) (h.views v hv)
  rw [hf.eq]
  refine ⟨fun hm => absurd hm (not_cluster h hv hf ha), fun c hc => ?_⟩
  obtain ⟨p', rfl, hp⟩ := comp_flat h hv hf hc
  exact fun q hq hin => hy q (hp q hq a hin).1

theorem crosscat_scored {Z : List Var} {x : Crosscat} (h : CC Z x) :
    ∃ y : ℝ, (cgpmI 3).logpdfScore (whole x) = .ok (.fin y) := by
  refine (scored_product (I := cgpmI 2) x).2 fun v hv => ?_
  obtain ⟨m, p, hf⟩ := flat_of_reg (h.viewReg hv) (h.views v hv)
  have hreg := h.viewReg hv
  rw [hf.eq] at hreg ⊢
  have hreg : MixReg _ _ _ _ _ _ _ m := hreg
  exact (RowMix.scored_iff (toM := FlexMix.toMetadata (cgpmI 1)) (fromM := FlexMix.fromMetadata (cgpmI 1))
      hreg.inv.1).2 (FlexArray.scored hreg.inv.2.1)

theorem noUC_crosscat {Z : List Var} {x : Crosscat} (h : CC Z x) (hc : ∀ a ∈ columns x, ∀ p, OfColumn x a p → p.kind ≠ .normalUC) :
    NoNormalUC 3 (whole x) := by
  intro v hv
  obtain ⟨m, p, hf⟩ := flat_of_reg (h.viewReg hv) (h.views v hv)
  have key : ∀ c ∈ m.array.base :: Dict.values m.array.cgpms, NoNormalUC 1 c := by
    intro c hc'
    obtain ⟨p', rfl, hp⟩ := comp_flat h hv hf hc'
    obtain ⟨Z, hr⟩ : ∃ Z, (cgpmTab Z 3).Reg (whole x) := ⟨_, h.reg⟩
    intro q hq
    have hqi : (q : Prim) ∈ primsIn 3 (whole x) := by
      refine List.mem_flatMap.2 ⟨v, hv, ?_⟩
      rw [hf.eq]
      refine List.mem_cons_of_mem _ (List.mem_append.2 ?_)
      rcases List.mem_cons.1 hc' with e | hc'
      · right; rw [← e]; exact List.mem_flatMap.2 ⟨q, hq, List.mem_singleton.2 rfl⟩
      · exact .inl (List.mem_flatMap.2 ⟨_, hc', List.mem_flatMap.2 ⟨q, hq, List.mem_singleton.2 rfl⟩⟩)
    obtain ⟨a, ha⟩ := (show (q : Prim).Inv from (reg_prims 3 _ h.reg q hqi).1.1).out
    obtain ⟨h1, h2⟩ := hp q hq a (by rw [ha]; simp)
    exact hc a h2 q h1
  rw [hf.eq]
  exact ⟨key _ List.mem_cons_self, fun kc hkc => key _ (List.mem_cons_of_mem _ (List.mem_map_of_mem hkc))⟩

end Cgpm2.Views
