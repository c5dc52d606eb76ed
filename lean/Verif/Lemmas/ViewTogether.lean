import Verif.Lemmas.ViewSteps
import Verif.Lemmas.CppCrosscat
import Verif.Lemmas.TidyLaws

/-!
# Rows and blocks of columns of a CrossCat (helpers)
-/

namespace Cgpm2.Views
open Spec

theorem hasRow_iff {Z : List Var} {x : Crosscat} (h : CC Z x) {v : View} (hv : v ∈ x.cgpms) (r : RowId) :
    HasRow v r ↔ (cgpmTab Z 2).present v r := by
  unfold HasRow
  rw [holdsNothing_iff (cgpmTLaws Z 2) (h.viewReg hv) r]
  have hr := h.viewReg hv
  constructor
  · intro hn
    by_contra hp
    refine hn fun a => ?_
    by_contra hc
    exact hp ((cgpmTLaws Z 2).present_cell _ _ _ hr hc)
  · intro hp hf
    obtain ⟨m, p, rfl, hk, hb⟩ := h.views v hv
    have := hf m.indexer
    have e : (cgpmTab Z 2).cell (.flexMix m : Node (Cgpm 1)) r m.indexer =
      Dict.get? m.rowidToComponent r := if_pos rfl
    rw [e] at this
    exact hp this

theorem aligned_iff {Z : List Var} {x : Crosscat} (h : CC Z x) (R : RowId → Prop) :
    Aligned x R ↔ Rows Z x R := by
  unfold Aligned Rows
  constructor
  · intro ha v hv r
    rw [← hasRow_iff h hv]; exact ha v hv r
  · intro ha v hv r
    rw [hasRow_iff h hv]; exact ha v hv r

theorem hasValue_iff {Z : List Var} {x : Crosscat} (h : CC Z x) (outs : List Var) (r : RowId) :
    HasValue x outs r ↔ Valued (fun r a => (cgpmTab Z 3).cell (whole x) r a) outs r := by
  unfold HasValue Valued
  simp only [heldCell_eq (cgpmTLaws Z 3) h.reg]
  exact ⟨fun f => f fun _ => ⟨0, 0⟩, fun f _ => f⟩

theorem CC.nonempty {Z : List Var} {x : Crosscat} (h : CC Z x) {v : View} (hv : v ∈ x.cgpms) :
    viewColumns v ≠ [] := by
  obtain ⟨m, p, hf⟩ := flat_of_reg (h.viewReg hv) (h.views v hv)
  have hr := h.viewReg hv
  rw [hf.eq] at hr
  have hr := (flexMix_base (cgpmLaws 1) (cgpmTLaws Z 1) (m := m) hr).1
  rw [hf.base] at hr
  have hne : p.cgpms ≠ [] := hr.2.2
  unfold viewColumns
  rw [hf.outputs, List.tail_cons]
  obtain ⟨q, hq⟩ := List.exists_mem_of_ne_nil _ hne
  obtain ⟨a, ha⟩ := hf.single q hq
  exact List.ne_nil_of_mem (a := a) (List.mem_flatMap.2 ⟨q, hq, by rw [ha]; simp⟩)

theorem cc_columns_nodup {Z : List Var} {x : Crosscat} (h : CC Z x) : (columns x).Nodup := by
  refine h.nodup.sublist ?_
  unfold columns
  generalize x.cgpms = l
  induction l with
  | nil => exact .slnil
  | cons v l ih => exact (List.tail_sublist _).append ih

theorem Same.data {Z Z' N : List Var} {A : (RowId → Prop) → Prop} {x x' : Crosscat} (h : CC Z x)
    (hs : Same Z' N A x x') (hp : (columns x').Perm (columns x)) : SameData x x' N where
  crosscat := hs.cc.views
  cols := hp
  nonempty := fun _ hv => hs.cc.nonempty hv
  cells := fun g r v hv => by
    rw [heldCell_eq (cgpmTLaws Z' 3) hs.cc.reg, heldCell_eq (cgpmTLaws Z 3) h.reg,
      hs.cell r v (hp.mem_iff.2 hv), (cellsZ Z' Z 3).1]
  clusters := fun v hv hN => by
    refine ⟨hs.outs v hv hN, fun g r k hk => ?_⟩
    rw [heldCell_eq (cgpmTLaws Z 3) h.reg, (cellsZ Z Z' 3).1] at hk
    rw [heldCell_eq (cgpmTLaws Z' 3) hs.cc.reg]
    exact hs.kept r v hv hN k hk

theorem present_head {Z : List Var} {x : Crosscat} (h : CC Z x) {v : View} (hv : v ∈ x.cgpms) {z : Var}
    (hz : z ∈ (cgpmI 2).outputs v) (hc : z ∉ columns x) (r : RowId) :
    (cgpmTab Z 2).present v r ↔ (cgpmTab Z 3).cell (whole x) r z ≠ none := by
  rw [h.cell hv hz]
  obtain ⟨m, p, hf⟩ := flat_of_reg (h.viewReg hv) (h.views v hv)
  rw [hf.outputs] at hz
  rcases List.mem_cons.1 hz with rfl | hz
  · rw [hf.eq]
    change Dict.get? m.rowidToComponent r ≠ none ↔ (if m.indexer = m.indexer then _ else _) ≠ none
    rw [if_pos rfl]
  · refine absurd (mem_columns.2 ⟨v, hv, ?_⟩) hc
    unfold viewColumns
    rw [hf.outputs]
    exact hz

theorem Same.clusters {Z Z' N : List Var} {A : (RowId → Prop) → Prop} {x x' : Crosscat} (h : CC Z x)
    (hs : Same Z' N A x x') (hp : (columns x').Perm (columns x)) {R : RowId → Prop} (hA : A R)
    (hR : Rows Z x R) : SameClusters x x' N := by
  intro v hv hN g r
  rw [heldCell_eq (cgpmTLaws Z' 3) hs.cc.reg, heldCell_eq (cgpmTLaws Z 3) h.reg]
  by_cases hc : v ∈ columns x
  · rw [hs.cell r v (hp.mem_iff.2 hc), (cellsZ Z' Z 3).1]
  · have hc' : v ∉ columns x' := fun h' => hc (hp.mem_iff.1 h')
    rcases hx : (cgpmTab Z 3).cell (whole x) r v with _ | k
    · obtain ⟨w, hw, hvw⟩ := List.mem_flatMap.1
        (show v ∈ x.cgpms.flatMap (cgpmI 2).outputs from hs.outs v hv hN)
      obtain ⟨w', hw', hvw'⟩ := List.mem_flatMap.1 (show v ∈ x'.cgpms.flatMap (cgpmI 2).outputs from hv)
      have h1 := present_head h hw hvw hc r
      have h2 := present_head hs.cc hw' hvw' hc' r
      rw [hR w hw r] at h1
      rw [hs.rows R hA w' hw' r, h1] at h2
      by_contra hne
      exact h2.2 hne hx
    · rw [(cellsZ Z Z' 3).1] at hx
      exact hs.kept r v hv hN k hx

theorem Outcome.perm {Z : List Var} {x x' : Crosscat} (h : CC Z x) {outs : List Var}
    {C1 : List (List Var)} (ho : Outcome x x' outs C1) (hn : outs.Nodup) :
    (columns x').Perm (columns x) := by
  have := cc_columns_nodup h
  unfold columns at this ⊢
  rw [List.flatMap_def] at this ⊢
  rw [List.flatMap_def]
  exact MovedCols.perm ho this hn

theorem NewView.alone {Z Z' N : List Var} {A : (RowId → Prop) → Prop} {x x' : Crosscat} (h : CC Z x)
    (hs : Same Z' N A x x') {outs : List Var} {z : Var} (hv : NewView Z x x' outs z) :
    AloneIn x x' outs z := by
  obtain ⟨T, h1, h2, h3⟩ := hv
  refine ⟨T, h1, h2, fun r => ?_⟩
  rw [hasRow_iff hs.cc h1, hasValue_iff h, ← h3, (cellsZ Z' Z 2).2]

/-! ## Blocks of columns -/

/-- Two columns are in one block. -/
def Tog (P : List (List Var)) (a b : Var) : Prop := ∃ c ∈ P, a ∈ c ∧ b ∈ c

theorem together_iff {x : Crosscat} {a b : Var} :
    Together x a b ↔ Tog (x.cgpms.map viewColumns) a b := by
  simp [Together, Tog]

theorem Tog.perm {P P' : List (List Var)} (h : P.Perm P') {a b : Var} : Tog P a b ↔ Tog P' a b := by
  unfold Tog
  constructor
  · rintro ⟨c, hc, h'⟩; exact ⟨c, h.mem_iff.1 hc, h'⟩
  · rintro ⟨c, hc, h'⟩; exact ⟨c, h.mem_iff.2 hc, h'⟩

theorem tog_cons {c : List Var} {P : List (List Var)} {a b : Var} :
    Tog (c :: P) a b ↔ (a ∈ c ∧ b ∈ c) ∨ Tog P a b := by
  simp [Tog]

theorem tog_append {P Q : List (List Var)} {a b : Var} : Tog (P ++ Q) a b ↔ Tog P a b ∨ Tog Q a b := by
  unfold Tog
  constructor
  · rintro ⟨c, hc, h⟩
    rcases List.mem_append.1 hc with hc | hc
    · exact .inl ⟨c, hc, h⟩
    · exact .inr ⟨c, hc, h⟩
  · rintro (⟨c, hc, h⟩ | ⟨c, hc, h⟩)
    · exact ⟨c, by simp [hc], h⟩
    · exact ⟨c, by simp [hc], h⟩

/-- How the moved columns, and the others, are together after a move. -/
theorem moved_tog {C1 P P' : List (List Var)} {outs : List Var} (h : MovedCols C1 P P' outs)
    (h1 : C1.length ≤ 1) (hn : P.flatten.Nodup) :
    (∀ a b, a ∉ outs → b ∉ outs → (Tog P' a b ↔ Tog P a b)) ∧
      (∀ a b, a ∈ outs → (Tog P' a b ↔ b ∈ outs ∨ b ∈ C1.flatten)) ∧
      (∀ a, a ∈ outs → a ∉ C1.flatten) := by
  obtain ⟨c0, w, hp, ho, hp'⟩ := h
  have hn := hp.flatten.nodup_iff.1 hn
  rw [List.flatten_cons, List.flatten_append, List.nodup_append, List.nodup_append] at hn
  have hflat : ∀ a, (∃ c ∈ C1, a ∈ c) ↔ a ∈ C1.flatten := fun a => List.mem_flatten.symm
  have hC1 : ∀ a b, Tog C1 a b ↔ a ∈ C1.flatten ∧ b ∈ C1.flatten := by
    intro a b
    rcases C1 with _ | ⟨c1, _ | ⟨c2, C⟩⟩
    · simp [Tog]
    · simp [Tog]
    · simp at h1
  have hw : ∀ a b, Tog w a b → a ∈ w.flatten := fun a b ⟨c, hc, h, _⟩ => List.mem_flatten.2 ⟨c, hc, h⟩
  have hif : ∀ a b, Tog (if (c0.filter fun v => decide (v ∉ outs)) = [] then []
      else [c0.filter fun v => decide (v ∉ outs)]) a b ↔
      (a ∈ c0 ∧ a ∉ outs) ∧ (b ∈ c0 ∧ b ∉ outs) := by
    intro a b
    split
    · rename_i he
      constructor
      · rintro ⟨c, hc, -⟩; cases hc
      · rintro ⟨ha, -⟩
        have : a ∈ c0.filter fun v => decide (v ∉ outs) := by simpa using ha
        rw [he] at this; cases this
    · simp [Tog]
  have hd0 : ∀ a, a ∈ c0 → a ∉ C1.flatten ∧ a ∉ w.flatten := fun a ha =>
    ⟨fun h => hn.2.2 a ha a (by simp [List.mem_append, h]) rfl,
      fun h => hn.2.2 a ha a (by simp [List.mem_append, h]) rfl⟩
  refine ⟨fun a b ha hb => ?_, fun a b ha => ?_, fun a ha => (hd0 a (ho a ha)).1⟩
  · rw [Tog.perm hp, Tog.perm hp', tog_cons, tog_cons, tog_append, tog_append, hif, hC1,
      List.mem_append, List.mem_append]
    simp only [ha, hb, or_false, not_false_eq_true, and_true]
    exact or_left_comm
  · have hac := hd0 a (ho a ha)
    rw [Tog.perm hp', tog_cons, tog_append, hif, List.mem_append, List.mem_append]
    constructor
    · rintro (h' | h' | h')
      · exact h'.2.symm
      · exact absurd ha h'.1.2
      · exact absurd (hw a b h') hac.2
    · rintro (h' | h')
      · exact .inl ⟨.inr ha, .inr h'⟩
      · exact .inl ⟨.inr ha, .inl h'⟩

theorem Alike.together {x x' : Crosscat} (h : Alike x x') {a b : Var} :
    Together x' a b ↔ Together x a b := by
  rw [together_iff, together_iff, h.cols]

theorem cols_flatten {Z : List Var} {x : Crosscat} (h : CC Z x) :
    (x.cgpms.map viewColumns).flatten.Nodup := by
  have := cc_columns_nodup h
  unfold columns at this
  rwa [List.flatMap_def] at this

/-- The columns of the view of `o`. -/
theorem together_view {Z : List Var} {x : Crosscat} (h : CC Z x) {v : View} (hv : v ∈ x.cgpms) {o b : Var}
    (ho : o ∈ viewColumns v) : Together x o b ↔ b ∈ viewColumns v := by
  constructor
  · rintro ⟨u, hu, h1, h2⟩
    have := eq_of_flatMap_nodup (cc_columns_nodup h) hu hv h1 ho
    rw [← this]; exact h2
  · exact fun hb => ⟨v, hv, ho, hb⟩

/-! ## What the properties say -/

theorem cc_of_tidy {Z : List Var} {x : Crosscat} (h : Tidy Z 3 (whole x)) (hx : IsCrosscat x)
    (hz : ∀ v ∈ columns x, v ∉ Z) : CC Z x := ⟨tidy_reg h, hx, hz⟩

theorem existing_rows {Z : List Var} {x x' : Crosscat} (h : CC Z x)
    (hs : Same Z [] (Rows Z x) x x') (hp : (columns x').Perm (columns x)) {R : RowId → Prop}
    (hR : Aligned x R) : Aligned x' R ∧ SameClusters x x' [] := by
  have hr := (aligned_iff h R).1 hR
  exact ⟨(aligned_iff hs.cc R).2 (hs.rows R hr), hs.clusters h hp hr hr⟩

theorem singleton_rows {Z : List Var} {x x' : Crosscat} (h : CC Z x) {z : Var} {outs : List Var}
    (hs : Same (z :: Z) [z] (Filled Z x outs) x x') (hp : (columns x').Perm (columns x))
    {R : RowId → Prop} (hR : Aligned x R) (hv : ∀ r, R r → HasValue x outs r) :
    Aligned x' R ∧ SameClusters x x' [z] := by
  have hr := (aligned_iff h R).1 hR
  have hf : Filled Z x outs R := ⟨hr, fun r h' => (hasValue_iff h _ r).1 (hv r h')⟩
  exact ⟨(aligned_iff hs.cc R).2 (hs.rows R hf), hs.clusters h hp hf hr⟩

end Cgpm2.Views
