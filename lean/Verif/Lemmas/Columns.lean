import Verif.Lemmas.ViewTogether
import Verif.Spec.CppUpdate

/-!
# The primitives of a column (helpers)
-/

namespace Cgpm2.Views
open Spec

section
variable {Z : List Var} {x : Crosscat}

theorem data_nil_of_fresh {p : Prim} {o : Var} (ho : p.outputs = [o]) (h : ∀ r, (primTab Z).Fresh p r) :
    p.data = [] := by
  by_contra hne
  obtain ⟨⟨r, v⟩, hrv⟩ := List.exists_mem_of_ne_nil _ hne
  have hk : r ∈ Dict.keys p.data := List.mem_map.2 ⟨_, hrv, rfl⟩
  obtain ⟨a, ha⟩ := Dict.exists_get?_of_mem_keys hk
  have := h r o
  simp only [primTab, ho, List.mem_singleton, if_true] at this
  rw [this] at ha
  cases ha

theorem eq_of_output {l : List (Cgpm 0)} (hn : (l.flatMap (cgpmI 0).outputs).Nodup) {a b : Prim} {o : Var}
    (ha : a ∈ l) (hb : b ∈ l) (hoa : a.outputs = [o]) (hob : b.outputs = [o]) : a = b := by
  exact eq_of_flatMap_nodup hn ha hb (by change o ∈ a.outputs; simp [hoa]) (by change o ∈ b.outputs; simp [hob])

/-- The primitives of a component of the same shape as a Product of primitives. -/
theorem shape_prims {c : Node (Cgpm 0)} {p : Product (Cgpm 0)}
    (hs : (cgpmSem 1).shape c = (cgpmSem 1).shape (.product p : Node (Cgpm 0))) {q : Prim} (hq : q ∈ primsIn 1 c) :
    ∃ b ∈ p.cgpms, Prim.shape b = q.shape := by
  rcases c with c | c | c | c | c | c
  · cases hs
  · have hs : Shape.product (c.cgpms.map Prim.shape) = Shape.product (p.cgpms.map Prim.shape) := hs
    injection hs with hs
    obtain ⟨q', hq', hqq⟩ := List.mem_flatMap.1 hq
    have hqq : q = q' := List.mem_singleton.1 hqq
    subst hqq
    have : Prim.shape q ∈ p.cgpms.map Prim.shape := by rw [← hs]; exact List.mem_map.2 ⟨q, hq', rfl⟩
    obtain ⟨b, hb, e⟩ := List.mem_map.1 this
    exact ⟨b, hb, e⟩
  · cases hs
  · cases hs
  · cases hs
  · cases hs

/-- The primitives of a column are of one class with one number of categories, and the base of its
view holds one that is empty. -/
theorem column_prims (h : CC Z x) {o : Var} (ho : o ∈ columns x) :
    ∃ b ∈ primsIn 3 (whole x), b.outputs = [o] ∧ b.data = [] ∧
      ∀ q ∈ primsIn 3 (whole x), q.outputs = [o] → q.kind = b.kind ∧ q.card = b.card := by
  obtain ⟨v, hv, hov⟩ := mem_columns.1 ho
  obtain ⟨m, p, hf⟩ := flat_of_reg (h.viewReg hv) (h.views v hv)
  have hreg := h.viewReg hv
  rw [hf.eq] at hreg
  have hreg : MixReg _ _ _ _ _ _ _ m := hreg
  obtain ⟨hb1, -, hb3⟩ := flexMix_base (cgpmLaws 1) (cgpmTLaws Z 1) (m := m) hreg
  rw [hf.base] at hb1 hb3
  have hout := hf.outputs
  have hcols : viewColumns v = p.cgpms.flatMap (cgpmI 0).outputs := by
    unfold viewColumns; rw [hout]; rfl
  rw [hcols] at hov
  obtain ⟨b, hb, hob⟩ := List.mem_flatMap.1 hov
  have hb' : Prim.outputs b = [o] := by
    obtain ⟨a, ha⟩ := hf.single b hb
    rw [ha, List.mem_singleton] at hob
    rw [hob]; exact ha
  have hbase : (b : Prim) ∈ primsIn 2 v := by
    rw [hf.eq]
    refine List.mem_cons_of_mem _ (List.mem_append.2 (.inr ?_))
    rw [hf.base]
    exact List.mem_flatMap.2 ⟨b, hb, List.mem_singleton.2 rfl⟩
  refine ⟨b, List.mem_flatMap.2 ⟨v, hv, hbase⟩, hb', ?_, fun q hq hoq => ?_⟩
  · refine data_nil_of_fresh (Z := Z) hb' fun r u => ?_
    by_cases hu : u = o
    · subst hu
      exact (ProdTab.cell_of_mem (cgpmTLaws Z 0) hb1.1 hf.nodup hb hob r).symm.trans (hb3 r u)
    · simp [primTab, hb', hu]
  · obtain ⟨v', hv', hq⟩ := List.mem_flatMap.1 hq
    obtain ⟨u, hu, hqu⟩ := (cgpm_walk Z 2 v' (h.viewReg hv')).sub q hq
    rw [hoq] at hqu
    cases hqu
    have hvv : v' = v := h.eq_view hv' hv hu (by rw [hout, ← hcols]; exact List.mem_cons_of_mem _ (by rw [hcols]; exact hov))
    subst hvv
    rw [hf.eq] at hq
    rcases List.mem_cons.1 hq with rfl | hq
    · rw [hf.out] at hoq
      cases hoq
      exact absurd hreg.x_mem (h.plain _ ho)
    have hshape : ∃ b' ∈ p.cgpms, Prim.shape b' = q.shape := by
      rcases List.mem_append.1 hq with hq | hq
      · obtain ⟨c, hc, hq⟩ := List.mem_flatMap.1 hq
        obtain ⟨⟨k, c'⟩, hkc, rfl⟩ := List.mem_map.1 hc
        have hinv := hreg.inv.2.1
        have hget := Dict.get?_of_mem hinv.2.2.1 hkc
        have hcopy := (hinv.2.1 k).2.2
        unfold FlexArray.comp at hcopy
        rw [hget, hf.base] at hcopy
        exact shape_prims hcopy hq
      · rw [hf.base] at hq
        exact shape_prims rfl hq
    obtain ⟨b', hb'm, hs⟩ := hshape
    unfold Prim.shape at hs
    injection hs with h1 h2 h3
    rw [hoq] at h1
    rw [eq_of_output hf.nodup hb hb'm hb' h1]
    exact ⟨h2.symm, h3.symm⟩

theorem cgpmBase_column (h : CC Z x) {o : Var} (ho : o ∈ columns x) :
    ∃ b ∈ primsIn 3 (whole x), cgpmBase (n := 3) (whole x) o = .ok b ∧ b.outputs = [o] ∧ b.data = [] ∧
      ∀ q ∈ primsIn 3 (whole x), q.outputs = [o] → q.kind = b.kind ∧ q.card = b.card := by
  obtain ⟨b, h1, h2, h3, h4⟩ := column_prims h ho
  obtain ⟨refs, e1, e2⟩ := (cgpm_walk Z 3 (whole x) h.reg).walk o (h.mem_outputs ho)
  have hb : b ∈ refs.objs.filter fun p => p.data.isEmpty := by
    rw [List.mem_filter, e2.objs, colOf, List.mem_filter]
    exact ⟨⟨h1, by simpa using h2⟩, by simp [h3]⟩
  rcases hf : refs.objs.filter fun p => p.data.isEmpty with _ | ⟨q, l⟩
  · rw [hf] at hb; cases hb
  have hq : q ∈ refs.objs.filter fun p => p.data.isEmpty := by rw [hf]; simp
  rw [List.mem_filter, e2.objs, colOf, List.mem_filter] at hq
  obtain ⟨⟨q1, q2⟩, q3⟩ := hq
  have q2 : q.outputs = [o] := by simpa using q2
  have hqb := h4 q q1 q2
  refine ⟨q, q1, ?_, q2, by simpa using q3, fun p hp hop => ?_⟩
  · unfold cgpmBase
    rw [e1]
    change (match refs.objs.filter fun p => p.data.isEmpty with
      | [] => throw .indexError
      | p :: _ => pure p : Except Err Prim) = _
    rw [hf]
    rfl
  · obtain ⟨a1, a2⟩ := h4 p hp hop
    exact ⟨a1.trans hqb.1.symm, a2.trans hqb.2.symm⟩

end

end Cgpm2.Views
