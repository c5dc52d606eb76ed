import Verif.Lemmas.EditPrims
import Verif.Lemmas.ConcreteEdits

/-!
# Properties C37 and C38: taking out and adding columns
-/

namespace Cgpm2.Props
open Spec Concrete

/-- C37: `remove_cgpm` succeeds, takes out the outputs of the block that generates `o`, and
nothing else: every other variable, cluster variables included, keeps exactly its cells. -/
theorem C37_remove (Z : List Var) (n : Nat) (c : Cgpm n) (h : Tidy Z n c) (o : Var)
    (hr : Removable n c o) :
    ∃ c', removeCgpm n c o = .ok c' ∧
      (cgpmI n).outputs c' = ((cgpmI n).outputs c).filter (fun v => decide (v ∉ blockOf n c o)) ∧
      ∀ g r v, heldCell (cgpmI n) c' g r v =
        if v ∈ blockOf n c o then none else heldCell (cgpmI n) c g r v := by
  have hreg := tidy_reg h
  obtain ⟨c', h1, h2, h3⟩ := (removeLaw Z n).ok c o hreg hr
  refine ⟨c', h1, h3, fun g r v => ?_⟩
  rw [heldCell_eq (cgpmTLaws Z n) h2.reg, heldCell_eq (cgpmTLaws Z n) hreg, h2.cell, h3]
  simp only [List.mem_filter, decide_eq_true_eq]
  by_cases hb : v ∈ blockOf n c o
  · simp [hb]
  · by_cases ho : v ∈ (cgpmI n).outputs c
    · simp [hb, ho]
    · simp [hb, ho, (cgpmTLaws Z n).cell_out c r v hreg ho]

/-- C37: the block of a column of a product of primitives is just the column, also inside a
flexible mixture. -/
theorem C37_block (Z : List Var) (p : Product Prim) (h : Tidy Z 1 (.product p : Node Prim)) (o : Var)
    (ho : o ∈ (cgpmI 1).outputs (.product p : Node Prim)) (m : FlexMix (Node Prim))
    (hm : m.array.base = .product p) :
    blockOf 1 (.product p : Node Prim) o = [o] ∧ blockOf 2 (.flexMix m : Node (Node Prim)) o = [o] := by
  have h1 : blockOf 1 (.product p : Node Prim) o = [o] := by
    have hreg := tidy_reg h
    obtain ⟨c, hc, hoc⟩ := List.mem_flatMap.1 (show o ∈ p.cgpms.flatMap primI.outputs from ho)
    change firstBlock primI p.cgpms o = [o]
    unfold firstBlock
    rcases hf : p.cgpms.find? (fun c => decide (o ∈ primI.outputs c)) with _ | d
    · have := List.find?_eq_none.1 hf c hc
      simp [hoc] at this
    · have hd := List.mem_of_find?_eq_some hf
      have ho' : o ∈ primI.outputs d := by simpa using List.find?_some hf
      obtain ⟨x, hx⟩ := (hreg.1 d hd).1.1.out
      have hx : primI.outputs d = [x] := hx
      rw [hx] at ho'
      rw [Option.map_some, Option.getD_some, hx, List.mem_singleton.1 ho']
  exact ⟨h1, by change blockOf 1 m.array.base o = _; rw [hm]; exact h1⟩

/-- C37: taking out a column the model does not have changes nothing that can be seen. -/
theorem C37_absent (Z : List Var) (n : Nat) (c : Cgpm n) (h : Tidy Z n c) (o : Var)
    (hr : Removable n c o) (ho : o ∉ (cgpmI n).outputs c) :
    ∃ c', removeCgpm n c o = .ok c' ∧ (cgpmI n).outputs c' = (cgpmI n).outputs c ∧
      ∀ g r v, heldCell (cgpmI n) c' g r v = heldCell (cgpmI n) c g r v := by
  have : ∀ n (c : Cgpm n), o ∉ (cgpmI n).outputs c → blockOf n c o = [] := by
    intro n
    induction n with
    | zero => intro c _; rfl
    | succ n ih =>
      intro c ho
      rcases c with q | q | a | a | m | m <;> first | rfl | skip
      · change firstBlock (cgpmI n) q.cgpms o = []
        unfold firstBlock
        rw [List.find?_eq_none.2]
        · rfl
        · intro d hd
          simp only [decide_eq_true_eq]
          exact fun hod => ho (List.mem_flatMap.2 ⟨d, hd, hod⟩)
      · exact ih m.array.base fun hb => ho (List.mem_append_right _ hb)
  have he := this n c ho
  obtain ⟨c', h1, h2, h3⟩ := C37_remove Z n c h o hr
  rw [he] at h2 h3
  exact ⟨c', h1, by simpa using h2, fun g r v => by simpa using h3 g r v⟩

/-- C37: taking out the last column of a product leaves a product without outputs. -/
theorem C37_last (n : Nat) (c : Cgpm n) (o : Var) (ho : o ∈ (cgpmI n).outputs c) :
    removeCgpm (n + 1) (.product ⟨[c]⟩ : Node (Cgpm n)) o = .ok (.product ⟨[]⟩ : Node (Cgpm n)) := by
  change (Walk.productRemove (cgpmI n) ⟨[c]⟩ o).map Node.product = _
  simp only [Walk.productRemove, List.filter_cons, ho, not_true_eq_false, decide_false,
    Bool.false_eq_true, if_false, List.filter_nil]
  rfl

/-- C37 is violated for finite mixtures: after `remove_cgpm` the rows are lost.  Here row 0 is held
with column 1, and after column 2 was taken out it is not. -/
theorem C37_finite_violated (g : Rng) : Tidy [6] 2 (.finMix coin0 : Node (Node Prim)) ∧
    (∃ c', removeCgpm 2 (.finMix coin0 : Node (Node Prim)) 2 = .ok c' ∧
      (cgpmI 2).outputs c' = [6, 1] ∧
      heldCell (cgpmI 2) (.finMix coin0 : Node (Node Prim)) g (some 0) 1 = some (.num 2) ∧
      heldCell (cgpmI 2) c' g (some 0) 1 = none) :=
  ⟨coin0_tidy, _, rfl, rfl, rfl, rfl⟩

/-- C38: `add_cgpm` of an empty column succeeds, puts its output last, and changes no cell. -/
theorem C38_add (Z : List Var) (n : Nat) (c : Cgpm n) (h : Tidy Z n c) (new : Prim)
    (hn : Tidy Z 0 new) (he : ∀ r, HoldsNothing (cgpmI 0) new r) (ha : Addable n c)
    (hx : ∀ v ∈ new.outputs, v ∉ (cgpmI n).outputs c) :
    ∃ c', addCgpm n c new = .ok c' ∧ (cgpmI n).outputs c' = (cgpmI n).outputs c ++ new.outputs ∧
      ∀ g r v, heldCell (cgpmI n) c' g r v = heldCell (cgpmI n) c g r v := by
  have hreg := tidy_reg h
  obtain ⟨c', h1, h2, h3⟩ := (addLaw Z n).ok c new hreg ha (tidy_reg hn)
    (fun r => (holdsNothing_iff (primTLaws Z) (tidy_reg hn) r).1 (he r)) hx
  refine ⟨c', h1, h3, fun g r v => ?_⟩
  rw [heldCell_eq (cgpmTLaws Z n) h2.reg, heldCell_eq (cgpmTLaws Z n) hreg, h2.cell, h3]
  by_cases ho : v ∈ (cgpmI n).outputs c
  · simp [ho]
  · simp [(cgpmTLaws Z n).cell_out c r v hreg ho]

/-- C38: every primitive of the new column is the new object or a clone of it. -/
theorem C38_copies (Z : List Var) (n : Nat) (c c' : Cgpm n) (h : Tidy Z n c) (new : Prim)
    (hn : Tidy Z 0 new) (ha : Addable n c) (hx : ∀ v ∈ new.outputs, v ∉ (cgpmI n).outputs c)
    (hc : addCgpm n c new = .ok c') :
    ∀ p ∈ primsIn n c', p.outputs = new.outputs → p = new ∨ primI.clone new = .ok p := by
  intro p hp ho
  have hg := (tidy_reg hn).1
  rcases addCgpm_prims n c c' new (tidy_reg h) hg ha hc p hp with h1 | h1 | h1
  · obtain ⟨o, h2, h3⟩ := (cgpm_walk Z n c (tidy_reg h)).sub p h1
    exact absurd h2 (hx o (by rw [← ho, h3]; simp))
  · exact .inl h1
  · rw [h1]
    exact .inr (primLaws.clone _ hg)

/-- C38: `remove_cgpm` undoes `add_cgpm`: the model is exactly as before. -/
theorem C38_undo (Z : List Var) (n : Nat) (c c' : Cgpm n) (h : Tidy Z n c) (new : Prim)
    (hn : Tidy Z 0 new) (ha : Addable n c) (hx : ∀ v ∈ new.outputs, v ∉ (cgpmI n).outputs c)
    (hc : addCgpm n c new = .ok c') (o : Var) (ho : o ∈ new.outputs) :
    removeCgpm n c' o = .ok c :=
  (addLaw Z n).undo c c' new o (tidy_reg h) ha hx ho (tidy_reg hn) hc

/-- The hypotheses are met by a view holding three rows in two clusters, to which a column is
added. -/
example : Tidy [5] 2 (.flexMix pane2 : Node (Node Prim)) ∧
    Addable 2 (.flexMix pane2 : Node (Node Prim)) ∧ Tidy [5] 0 (extra : Prim) ∧
    (∀ r, HoldsNothing (cgpmI 0) (extra : Prim) r) ∧
    (cgpmI 2).outputs (.flexMix pane2 : Node (Node Prim)) = [5, 1] ∧ extra.outputs = [2] ∧
    addCgpm 2 (.flexMix pane2 : Node (Node Prim)) extra = .ok (.flexMix wide) ∧
    (cgpmI 2).outputs (.flexMix wide : Node (Node Prim)) = [5, 1, 2] :=
  ⟨pane2_tidy, trivial, extra_tidy, extra_empty, rfl, rfl, rfl, rfl⟩

/-- The hypotheses are met by that view: column 1 can be taken out. -/
example : Tidy [5] 2 (.flexMix wide : Node (Node Prim)) ∧
    Removable 2 (.flexMix wide : Node (Node Prim)) 1 ∧
    blockOf 2 (.flexMix wide : Node (Node Prim)) 1 = [1] :=
  ⟨wide_tidy, wide_removable, rfl⟩

end Cgpm2.Props
