import Verif.Lemmas.LifeAsked
import Verif.Props.Entropy
import Verif.Props.Ensemble
import Verif.Model.EnsembleQueries

/-!
# Questions about the structure of an ensemble, and about information (helpers)
-/

namespace Cgpm2.Life
open Spec Views Ensemble

variable {outputs : List Var} {types : List Dist} {T : Ledger}

theorem toAll_fst {S α : Type} (mp : Bool) (f : Py (S × Rng) α) (cs : List (S × Rng)) (as : List α) :
    (toAll mp f cs).1 = .ok as ↔ List.Forall₂ (fun c a => (f c).1 = .ok a) cs as := by
  constructor
  · intro h
    exact ((toAll_ok mp f cs (toAll mp f cs).2 as).1 (Prod.ext h rfl)).1
  · intro h
    rw [(toAll_ok mp f cs _ as).2 ⟨h, rfl⟩]

theorem toAll_raise {S α : Type} (mp : Bool) (f : Py (S × Rng) α) {cs : List (S × Rng)} (hne : cs ≠ []) {e : Err}
    (h : ∀ c ∈ cs, (f c).1 = .error e) : (toAll mp f cs).1 = .error e := by
  cases cs with
  | nil => exact absurd rfl hne
  | cons c cs =>
    unfold toAll
    rw [mapper_fst, List.map_cons, List.zip_cons_cons, List.mapM_cons]
    dsimp only
    rw [h c List.mem_cons_self]
    rfl

/-- A column among the outputs of a view is a column of the view. -/
theorem column_of {Z : List Var} {x : Crosscat} (h : CC Z x) {w : View} (hw : w ∈ x.cgpms) {a : Var}
    (ha : a ∈ (cgpmI 2).outputs w) (hc : a ∈ columns x) : a ∈ viewColumns w := by
  obtain ⟨w', hw', haw'⟩ := mem_columns.1 hc
  have := eq_of_flatMap_nodup h.nodup hw' hw (List.mem_of_mem_tail haw') ha
  exact this ▸ haw'

/-- `mutual_information` in a chain. -/
theorem chain_mi (hl : outputs.length = types.length) {c : Cgpm 3 × Rng} (h : Chain outputs types T c)
    (hr : ¬ T.rows none) {t0 t1 : List Var} {k : Option (Dict Var Val)} (h0 : t0 ≠ []) (h1 : t1 ≠ [])
    (hn0 : t0.Nodup) (hn1 : t1.Nodup) (hnk : (Dict.keys (k.getD [])).Nodup)
    (hq : LegalMiQuery outputs t0 t1 (Dict.keys (k.getD [])) [])
    (hk : ∀ vy ∈ k.getD [], Sensible outputs types vy.1 vy.2) (T' N : Option Nat) :
    ∃ m v : ℝ, (Entropy.mutualInformation (cgpmI 3) t0 t1 k none T' N c).1 = .ok (.fin m, .fin v) := by
  have hall := h
  obtain ⟨x, Z, e, hcc, hc, hd, hout, hf⟩ := chain_parts h
  obtain ⟨c, g⟩ := c
  dsimp only at e
  subst e
  refine Props.mi_answers_reg (Z := Z) hcc.reg ((holdsNothing_iff (cgpmTLaws Z 3) hcc.reg none).2 (hf none hr))
    h0 h1 hn0 hn1 hnk ⟨fun v hv => hout v (hq.known v hv), hq.tc, hq.tm, hq.cm, hq.tt⟩
    (fun vy hvy => sensible_plausible hcc hc hl hd (hk vy hvy)) (fun t hsub out ho s hs vy hvy => ?_) T'
  have hex := (chain_exact hl hall (N := some (Entropy.orDefault N)) (fun v hv => hq.known v ((hsub v hv).elim .inl fun h => .inr (.inl h)))
    (by simpa using orDefault_ne N) ho).2.2 s hs
  have hv : vy.1 ∈ outputs := by
    have := (hex.1 vy.1).1 (List.mem_map_of_mem hvy)
    exact hq.known _ ((hsub _ this).elim .inl fun h => .inr (.inl h))
  obtain ⟨k1, k2⟩ := chain_values hall ho hs (v := vy.1) (y := vy.2) hvy hv
  exact sensible_plausible hcc hc hl hd ⟨hv, fun d hvd => ⟨k2 d hvd, fun hy => absurd hy k1⟩⟩

/-- ... is zero between columns of different views. -/
theorem chain_mi_zero (hl : outputs.length = types.length) {c : Cgpm 3 × Rng} (h : Chain outputs types T c)
    (hr : ¬ T.rows none) {t0 t1 : List Var} {k : Option (Dict Var Val)} (h0 : t0 ≠ []) (h1 : t1 ≠ [])
    (hn0 : t0.Nodup) (hn1 : t1.Nodup) (hnk : (Dict.keys (k.getD [])).Nodup)
    (hq : LegalMiQuery outputs t0 t1 (Dict.keys (k.getD [])) [])
    (hk : ∀ vy ∈ k.getD [], Sensible outputs types vy.1 vy.2) (T' N : Option Nat) {x : Crosscat}
    (hx : c.1 = whole x) (hd : ∀ a ∈ t0, ∀ b ∈ t1, ¬ Together x a b) :
    (Entropy.mutualInformation (cgpmI 3) t0 t1 k none T' N c).1 = .ok (.fin 0, .fin 0) := by
  obtain ⟨m, v, hmv⟩ := chain_mi hl h hr h0 h1 hn0 hn1 hnk hq hk T' N
  obtain ⟨x', Z, e, hcc, hc, hd', hout, hf⟩ := chain_parts h
  obtain ⟨c, g⟩ := c
  dsimp only at e hx
  subst e
  have hxx : x' = x := by
    simp only [whole] at hx
    injection hx
  subst hxx
  have hblocks : DifferentBlocks (cgpmI 2) x'.cgpms t0 t1 := by
    intro w hw
    by_contra hn
    simp only [Spec.Apart, not_or, not_forall, not_not] at hn
    obtain ⟨⟨a, ha, ha0⟩, b, hb, hb1⟩ := hn
    have col : ∀ {a}, a ∈ (cgpmI 2).outputs w → a ∈ outputs → a ∈ viewColumns w :=
      fun ha ho => column_of hcc hw ha ((hc _).2 ho)
    exact hd a ha0 b hb1 ⟨w, hw, col ha (hq.known a (.inl ha0)), col hb (hq.known b (.inr (.inl hb1)))⟩
  obtain ⟨rfl, h2⟩ := Props.mi_zero_reg (Z := Z) (p := x') hcc.reg
    (.inl ((holdsNothing_iff (cgpmTLaws Z 3) hcc.reg none).2 (hf none hr))) h0 hblocks hnk hmv
  rw [hmv, h2]

/-- `same_assignment_column` and its matrix in a chain. -/
theorem chain_columns {c : Cgpm 3 × Rng} (h : Chain outputs types T c) :
    ∃ x, c.1 = whole x ∧ outputs.Nodup ∧ ∃ M, (structural (fun x => sameColumnPairwise (cgpmI 2) x outputs) c).1 = .ok M ∧
      M.size = outputs.length ∧ EquivalenceMatrix outputs.length M.entry ∧
      ∀ (i j : Nat) a b, outputs[i]? = some a → outputs[j]? = some b →
        ∃ q, (structural (fun x => sameColumn (cgpmI 2) x a b) c).1 = .ok q ∧
          (M.entry i j = if q then 1 else 0) ∧ (q = true ↔ Together x a b) := by
  obtain ⟨x, τ, e, hx, hτ⟩ := h
  obtain ⟨Z, hcc⟩ := hx.cc
  obtain ⟨c, g⟩ := c
  dsimp only at e
  subst e
  have hn : outputs.Nodup := hx.cols.nodup_iff.1 (cc_columns_nodup hcc)
  obtain ⟨M, h1, h2, h3, h4⟩ := Props.columns_reg Z 2 x hcc.reg outputs hn (fun o ho => by
    obtain ⟨w, hw, hvw⟩ := mem_columns.1 (hx.cols.mem_iff.2 ho)
    exact ⟨w, hw, List.mem_of_mem_tail hvw⟩)
  refine ⟨x, rfl, hn, M, h1, h2, h3, fun i j a b ha hb => ?_⟩
  obtain ⟨q, k1, k2, k3⟩ := h4 i j a b ha hb
  refine ⟨q, k1, k2, k3.trans ⟨?_, ?_⟩⟩
  · rintro ⟨w, hw, h5, h6⟩
    exact ⟨w, hw, column_of hcc hw h5 (hx.cols.mem_iff.2 (List.mem_of_getElem? ha)),
      column_of hcc hw h6 (hx.cols.mem_iff.2 (List.mem_of_getElem? hb))⟩
  · rintro ⟨w, hw, h5, h6⟩
    exact ⟨w, hw, List.mem_of_mem_tail h5, List.mem_of_mem_tail h6⟩

theorem whole_inj {x x' : Crosscat} (h : whole x = whole x') : x = x' := by
  simp only [whole] at h
  injection h

theorem chain_rows' {c : Cgpm 3 × Rng} (h : Chain outputs types T c) {o : Var} (ho : o ∈ outputs) :
    ∃ x view, c.1 = whole x ∧ view ∈ x.cgpms ∧ o ∈ viewColumns view ∧
      (∀ r, T.cells r o ≠ none → HasRow view r) ∧ (∀ r, HasRow view r → T.rows r) ∧
      ∃ (rows : List RowId) (M : Mat), (structural (fun x => sameRowPairwise (S := Cgpm 1) (cgpmI 2) x o) c).1 = .ok M ∧
        rows.Nodup ∧ (∀ r, r ∈ rows ↔ HasRow view r) ∧ M.size = rows.length ∧
        EquivalenceMatrix rows.length M.entry ∧
        (∀ (i j : Nat) r s, rows[i]? = some r → rows[j]? = some s →
          ∃ q, (structural (fun x => sameRow (S := Cgpm 1) (cgpmI 2) x o r s) c).1 = .ok q ∧
            (M.entry i j = if q then 1 else 0) ∧ (q = true ↔ SameCluster view r s)) ∧
        ∀ r s, ¬ HasRow view r ∨ ¬ HasRow view s →
          (structural (fun x => sameRow (S := Cgpm 1) (cgpmI 2) x o r s) c).1 = .error .keyError := by
  obtain ⟨x, τ, e, hx, hτ⟩ := h
  obtain ⟨Z, hcc⟩ := hx.cc
  obtain ⟨c, g⟩ := c
  dsimp only at e
  subst e
  obtain ⟨w, hw, hvw⟩ := mem_columns.1 (hx.cols.mem_iff.2 ho)
  have hvw' : o ∈ (cgpmI 2).outputs w := List.mem_of_mem_tail hvw
  have K := cgpmTLaws Z 2
  obtain ⟨d, z, supp, hdiv, hz, hm⟩ := view_mixture (hcc.viewReg hw) (hcc.views w hw)
  obtain ⟨z', hz1, hz2, hz3⟩ := present_iff (hcc.viewReg hw) (hcc.views w hw)
  have hzz : z' = z := by
    rw [← hz]
    cases hl : (cgpmI 2).outputs w with
    | nil => rw [hl] at hz2; cases hz2
    | cons a l => rw [hl] at hz2; exact (Option.some.inj hz2).symm
  subst hzz
  have hrow : ∀ r g, HasRow w r ↔ heldCell (cgpmI 2) w g r z' ≠ none := fun r g => by
    rw [hasRow_iff hcc hw, hz3, heldCell_eq K (hcc.viewReg hw)]
  have hzw : z' ∈ (cgpmI 2).outputs w := List.mem_of_mem_head? hz2
  obtain ⟨rows, M, h1, h2, h3, h4, h5, h6⟩ := Props.rows_reg Z 1 x hcc.reg w hw o hvw' z' supp hm g
  refine ⟨x, w, rfl, hw, hvw, fun r hr => ?_, fun r hr => ?_, rows, M, h1, h2, fun r => (h3 r).trans (hrow r g).symm, h4, h5,
    fun i j r s hr hs => ?_, fun r s hrs => ?_⟩
  · rw [← hx.cells g r o ho, heldCell_eq (cgpmTLaws Z 3) hcc.reg, hcc.cell hw hvw'] at hr
    intro hn
    exact hr (by rw [← heldCell_eq K (hcc.viewReg hw) (g := g)]; exact hn g o)
  · refine hx.rows g r z' ?_
    rw [heldCell_eq (cgpmTLaws Z 3) hcc.reg, hcc.cell hw hzw, ← hz3]
    exact (hasRow_iff hcc hw r).1 hr
  · obtain ⟨q, k1, k2, k3⟩ := h6 i j r s hr hs
    refine ⟨q, k1, k2, k3.trans ?_⟩
    unfold SameCluster
    rw [hz]
    constructor
    · intro h g'
      rw [heldCell_eq K (hcc.viewReg hw)] at h ⊢
      rw [heldCell_eq K (hcc.viewReg hw)] at h ⊢
      exact h
    · exact fun h => h g
  · exact Props.row_missing Z 1 x hcc.reg w hw o hvw' z' supp hm g r s (hrs.imp
      (fun h => by_contra fun h' => h ((hrow r g).2 h')) (fun h => by_contra fun h' => h ((hrow s g).2 h')))

/-- `same_assignment_row` and its matrix in a chain. -/
theorem chain_rows {c : Cgpm 3 × Rng} (h : Chain outputs types T c) {o : Var} (ho : o ∈ outputs) :
    ∃ x view, c.1 = whole x ∧ view ∈ x.cgpms ∧ o ∈ viewColumns view ∧
      (∀ r, T.cells r o ≠ none → HasRow view r) ∧ (∀ r, HasRow view r → T.rows r) ∧
      ∃ (rows : List RowId) (M : Mat), (structural (fun x => sameRowPairwise (S := Cgpm 1) (cgpmI 2) x o) c).1 = .ok M ∧
        rows.Nodup ∧ (∀ r, r ∈ rows ↔ HasRow view r) ∧ M.size = rows.length ∧
        EquivalenceMatrix rows.length M.entry ∧
        ∀ (i j : Nat) r s, rows[i]? = some r → rows[j]? = some s →
          ∃ q, (structural (fun x => sameRow (S := Cgpm 1) (cgpmI 2) x o r s) c).1 = .ok q ∧
            (M.entry i j = if q then 1 else 0) ∧ (q = true ↔ SameCluster view r s) := by
  obtain ⟨x, w, k1, k2, k3, k4, k5, rows, M, k6, k7, k8, k9, k10, k11, -⟩ := chain_rows' h ho
  exact ⟨x, w, k1, k2, k3, k4, k5, rows, M, k6, k7, k8, k9, k10, k11⟩

theorem chain_row_missing {c : Cgpm 3 × Rng} (h : Chain outputs types T c) {o : Var} (ho : o ∈ outputs) {x : Crosscat}
    (hx : c.1 = whole x) {view : View} (hv : view ∈ x.cgpms) (hov : o ∈ viewColumns view) {r s : RowId}
    (hr : ¬ HasRow view r ∨ ¬ HasRow view s) :
    (structural (fun x => sameRow (S := Cgpm 1) (cgpmI 2) x o r s) c).1 = .error .keyError := by
  have hcc := h
  obtain ⟨x', w, k1, k2, k3, k4, k5, rows, M, -, -, -, -, -, -, k12⟩ := chain_rows' h ho
  obtain ⟨x'', τ, e, hg, -⟩ := hcc
  obtain ⟨Z, hcc⟩ := hg.cc
  have e1 := whole_inj (k1.symm.trans hx)
  have e2 := whole_inj (e.symm.trans hx)
  subst e1
  subst e2
  have := eq_of_flatMap_nodup (cc_columns_nodup hcc) k2 hv k3 hov
  subst this
  exact k12 r s hr

/-- A new row is given, without cells in the view of `b`. -/
theorem chain_skipped {c c' : Cgpm 3 × Rng} (h : Chain outputs types T c) {r : RowId} (hr : ¬ T.rows r)
    {o i : Dict Var Val} (ho : ∀ v ∈ Dict.keys o, v ∈ outputs) {b : Var} (hb : b ∈ outputs) {x : Crosscat}
    (hx : c.1 = whole x) (hd : ∀ a ∈ Dict.keys o, ¬ Together x a b)
    (he : (cgpmI 3).observe r o i c = (.ok (), c')) (s : RowId) :
    (structural (fun x => sameRow (S := Cgpm 1) (cgpmI 2) x b r s) c').1 = .error .keyError := by
  have hrow := chain_rows h hb
  obtain ⟨x1, w, k1, k2, k3, -, k5, -⟩ := hrow
  have e1 := whole_inj (k1.symm.trans hx)
  subst e1
  obtain ⟨x2, τ, e2, hg, hn⟩ := h
  have e2 := whole_inj (e2.symm.trans hx)
  subst e2
  obtain ⟨c, g⟩ := c
  obtain ⟨c', g'⟩ := c'
  dsimp only at hx
  subst hx
  obtain ⟨Z, hcc⟩ := hg.cc
  obtain ⟨x', rfl, hg'⟩ := observe_step hg ho he
  obtain ⟨t', he', e⟩ := inside_inv (m := Product.observe (cgpmI 2) r o i) he
  have e : x' = t' := by injection e
  subst e
  obtain ⟨xs, h1, h2, h3⟩ := Product.observe_ok he'
  rw [← h1] at k2
  obtain ⟨t, ht, rfl⟩ := List.mem_map.1 k2
  obtain ⟨g1, g2, h4⟩ := h3 t ht
  have hnone : only ((cgpmI 2).outputs t.1) o = [] := by
    by_contra hne
    obtain ⟨vy, hvy⟩ := List.exists_mem_of_ne_nil _ hne
    obtain ⟨h5, h6⟩ := List.mem_filter.1 hvy
    rw [decide_eq_true_eq] at h6
    have hk : vy.1 ∈ Dict.keys o := List.mem_map_of_mem h5
    have hw : t.1 ∈ x2.cgpms := by rw [← h1]; exact k2
    exact hd _ hk ⟨t.1, hw, column_of hcc hw h6 (hg.cols.mem_iff.2 (ho _ hk)), k3⟩
  rw [observeOne_eq, if_pos hnone] at h4
  have h5 : t.2.2 = t.1 := (congrArg (·.2.1) h4).symm
  have hm : t.1 ∈ x'.cgpms := by rw [← h2, ← h5]; exact List.mem_map_of_mem ht
  exact chain_row_missing (T := T.observe r o) ⟨x', τ, rfl, hg', hn⟩ hb rfl hm k3 (.inl fun hh => hr (k5 r hh))

end Cgpm2.Life
