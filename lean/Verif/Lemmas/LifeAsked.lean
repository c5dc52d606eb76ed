import Verif.Lemmas.Asked
import Verif.Lemmas.Values
import Verif.Spec.Asked

/-!
# Questions to an ensemble, after any calls (helpers)
-/

namespace Cgpm2
open Spec

/-- The shape of a model is good if the values of its primitives are. -/
theorem shape_good {V : Var → Val → Prop} : (n : Nat) → (c : Cgpm n) →
    (∀ b ∈ primsIn n c, b.kind ≠ .crp → ∀ o ∈ b.outputs, ∀ p : Prim, p.kind = b.kind → p.card = b.card → ∀ q,
      p.Legal (.num q) → V o (.num q)) → ((cgpmSem n).shape c).Good V
  | 0, p, h => .prim (h p (List.mem_singleton.2 rfl))
  | n + 1, c, h => by
    cases c with
    | prim p => exact .prim (h p (List.mem_singleton.2 rfl))
    | product p =>
      refine .product fun s hs => ?_
      obtain ⟨c, hc, rfl⟩ := List.mem_map.1 hs
      exact shape_good n c fun b hb => h b (List.mem_flatMap.2 ⟨c, hc, hb⟩)
    | finArray p =>
      refine .array fun s hs => ?_
      obtain ⟨c, hc, rfl⟩ := List.mem_map.1 hs
      exact shape_good n c fun b hb => h b (List.mem_flatMap.2 ⟨c, hc, hb⟩)
    | flexArray a => exact shape_good n a.base fun b hb => h b (List.mem_append_right _ hb)
    | finMix m =>
      refine .mix (.array fun s hs => ?_)
      obtain ⟨c, hc, rfl⟩ := List.mem_map.1 hs
      exact shape_good n c fun b hb => h b (List.mem_cons_of_mem _ (List.mem_flatMap.2 ⟨c, hc, hb⟩))
    | flexMix m =>
      exact .mix (shape_good n m.array.base fun b hb => h b (List.mem_cons_of_mem _ (List.mem_append_right _ hb)))

end Cgpm2

namespace Cgpm2.Life
open Spec Views Ensemble

variable {outputs : List Var} {types : List Dist} {T : Ledger}

/-- The parts of a chain. -/
theorem chain_parts {c : Cgpm 3 × Rng} (h : Chain outputs types T c) :
    ∃ x Z, c.1 = whole x ∧ CC Z x ∧ (∀ v, v ∈ columns x ↔ v ∈ outputs) ∧ Declared outputs types x ∧
      (∀ v ∈ outputs, v ∈ (cgpmI 3).outputs (whole x)) ∧ ∀ r, ¬ T.rows r → (cgpmTab Z 3).Fresh (whole x) r := by
  have hk := chain_keeps h
  obtain ⟨x, τ, e, hx, hτ⟩ := h
  obtain ⟨Z, hcc⟩ := hx.cc
  obtain ⟨c, g⟩ := c
  dsimp only at e
  subst e
  obtain ⟨x', g', e, -, -, hd, -⟩ := hk
  cases e
  refine ⟨x, Z, rfl, hcc, fun v => hx.cols.mem_iff, hd, fun v hv => ?_, fun r hr v => ?_⟩
  · obtain ⟨w, hw, hvw⟩ := mem_columns.1 (hx.cols.mem_iff.2 hv)
    refine List.mem_flatMap.2 ⟨w, hw, ?_⟩
    unfold viewColumns at hvw
    exact List.mem_of_mem_tail hvw
  · by_contra hne
    have h1 := hx.rows (fun _ => ⟨0, 0⟩) r v
    rw [heldCell_eq (cgpmTLaws Z 3) hcc.reg] at h1
    exact hr (h1 hne)

theorem exists_type' {x : Crosscat} (hc : ∀ v, v ∈ columns x ↔ v ∈ outputs) (hl : outputs.length = types.length)
    (hd : Declared outputs types x) {v : Var} (hv : v ∈ columns x) {p : Prim} (hp : OfColumn x v p) :
    ∃ d, (v, d) ∈ outputs.zip types ∧ OfType d p := by
  obtain ⟨d, hvd⟩ := exists_type hl ((hc v).1 hv)
  exact ⟨d, hvd, (hd (v, d) hvd).2 p hp⟩

theorem sensible_plausible {x : Crosscat} {Z : List Var} (hcc : CC Z x) (hc : ∀ v, v ∈ columns x ↔ v ∈ outputs)
    (hl : outputs.length = types.length) (hd : Declared outputs types x) {v : Var} {y : Val}
    (h : Sensible outputs types v y) : Plausible 3 (whole x) v y := by
  have hv := (hc v).2 h.1
  refine plausible_cell hcc hv fun p hp => ?_
  obtain ⟨d, hvd, ht⟩ := exists_type' hc hl hd hv hp
  obtain ⟨h1, h2⟩ := h.2 d hvd
  refine ⟨(value_iff ht (column_kind hcc hv hp) y).1 h1, fun hy => ?_⟩
  obtain ⟨h3, h4⟩ := h2 hy
  cases p <;> simp_all [OfType, Prim.kind]

theorem chain_score {c : Cgpm 3 × Rng} (h : Chain outputs types T c) : Finite ((cgpmI 3).logpdfScore c.1) := by
  obtain ⟨x, Z, e, hcc, -⟩ := chain_parts h
  rw [e]
  exact crosscat_scored hcc

theorem chain_logpdf {c : Cgpm 3 × Rng} (h : Chain outputs types T c) {r : RowId} (hr : ¬ T.rows r)
    {t : Dict Var Val} (ht : t ≠ []) (hn : (Dict.keys t).Nodup) (ho : ∀ v ∈ Dict.keys t, v ∈ outputs) :
    ReturnsLogP ((cgpmI 3).logpdf r t [] [] c).1 := by
  obtain ⟨x, Z, e, hcc, hc, hd, hout, hf⟩ := chain_parts h
  obtain ⟨c, g⟩ := c
  dsimp only at e
  subst e
  have ho' : ∀ kv ∈ t ++ [], kv.1 ∈ outputs := fun kv hkv =>
    ho kv.1 (List.mem_map_of_mem (by simpa using hkv))
  have h1 := ((cgpmDLaws Z 3).wdens (whole x) r hcc.reg (hf r hr)).isLogP0 (t := t)
    ⟨by simpa [Dict.keys] using hn, fun kv hkv => hout _ (ho' kv hkv),
      fun kv hkv => askable_cell hcc ((hc _).2 (ho' kv hkv)) kv.2⟩
  exact ⟨_, logpdfOf_eq ht h1 g, h1⟩

theorem chain_positive (hl : outputs.length = types.length) {c : Cgpm 3 × Rng} (h : Chain outputs types T c)
    {r : RowId} (hr : ¬ T.rows r) {t cs : Dict Var Val} (ht : t ≠ []) (hn : (Dict.keys t ++ Dict.keys cs).Nodup)
    (hs : ∀ vy ∈ t ++ cs, Sensible outputs types vy.1 vy.2) : Finite ((cgpmI 3).logpdf r t cs [] c).1 := by
  obtain ⟨x, Z, e, hcc, hc, hd, hout, hf⟩ := chain_parts h
  obtain ⟨c, g⟩ := c
  dsimp only at e
  subst e
  obtain ⟨y, hy⟩ := ((cgpmDLaws Z 3).full (whole x) r hcc.reg (hf r hr)).fin t cs
    ⟨hn, fun kv hkv => hout _ (hs kv hkv).1, fun kv hkv => sensible_plausible hcc hc hl hd (hs kv hkv)⟩
  exact ⟨y, by
    have := logpdfOf_eq (c := (whole x : Cgpm 3)) (r := r) (cs := cs) ht (by rw [hy]; trivial) g
    exact this.trans (by rw [hy])⟩

theorem chain_ratio (hl : outputs.length = types.length) {c : Cgpm 3 × Rng} (h : Chain outputs types T c)
    {r : RowId} (hr : ¬ T.rows r) {t cs : Dict Var Val} (ht : t ≠ []) (hcs : cs ≠ [])
    (hn : (Dict.keys t ++ Dict.keys cs).Nodup)
    (ho : ∀ v ∈ Dict.keys t, v ∈ outputs) (hs : ∀ vy ∈ cs, Sensible outputs types vy.1 vy.2) :
    ∃ (w : Fl) (y : ℝ), w.IsLogP ∧ ((cgpmI 3).logpdf r (t ++ cs) [] [] c).1 = .ok w ∧
      ((cgpmI 3).logpdf r cs [] [] c).1 = .ok (.fin y) ∧ ((cgpmI 3).logpdf r t cs [] c).1 = .ok (w - .fin y) := by
  obtain ⟨y, hy⟩ := chain_positive hl h hr (t := cs) (cs := []) hcs
    (by simpa [Dict.keys] using (List.nodup_append.1 hn).2.1) (by simpa using hs)
  obtain ⟨x, Z, e, hcc, hc, hd, hout, hf⟩ := chain_parts h
  obtain ⟨c, g⟩ := c
  dsimp only at e
  subst e
  have W := (cgpmDLaws Z 3).wdens (whole x) r hcc.reg (hf r hr)
  have ho' : ∀ kv ∈ t ++ cs, kv.1 ∈ outputs := by
    intro kv hkv
    rcases List.mem_append.1 hkv with hkv | hkv
    · exact ho _ (List.mem_map_of_mem hkv)
    · exact (hs kv hkv).1
  have hq' : IsQuery ((cgpmI 3).outputs (whole x)) (Askable 3 (whole x)) t cs :=
    ⟨hn, fun kv hkv => hout _ (ho' kv hkv), fun kv hkv => askable_cell hcc ((hc _).2 (ho' kv hkv)) kv.2⟩
  have hne : lp (cgpmI 3) r (whole x) cs [] ≠ .ninf := positive_lp (g := g) (.inr ⟨y, hy⟩)
  have hy' : lp (cgpmI 3) r (whole x) cs [] = .fin y := by
    have := logpdfOf_eq hcs (W.isLogP0 hq'.right) g
    exact Except.ok.inj (this.symm.trans hy)
  have h1 := W.isLogP t cs hq' hne
  have h2 := W.isLogP0 hq'.joint
  have h3 := W.ratio t cs hq' hne
  have ht' : t ++ cs ≠ [] := by simp [ht]
  refine ⟨_, y, h2, logpdfOf_eq ht' h2 g, hy, ?_⟩
  refine (logpdfOf_eq ht h1 g).trans ?_
  rw [h3, hy']
  congr 1
  rcases hlp : lp (cgpmI 3) r (whole x) t cs with _ | _ | _ | x' <;> rw [hlp] at h1
  · exact h1.elim
  · rfl
  · exact h1.elim
  · change Fl.fin x' = Fl.fin (x' + y + -y)
    simp

theorem chain_noUC (hl : outputs.length = types.length) {x : Crosscat} {Z : List Var} (hcc : CC Z x)
    (hc : ∀ v, v ∈ columns x ↔ v ∈ outputs) (hd : Declared outputs types x) : NoNormalUC 3 (whole x) := by
  refine noUC_crosscat hcc fun a ha p hp hk => ?_
  obtain ⟨d, -, ht⟩ := exists_type' hc hl hd ha hp
  cases p <;> first | exact ht.elim | cases hk

theorem chain_exact (hl : outputs.length = types.length) {c : Cgpm 3 × Rng} (h : Chain outputs types T c)
    {r : RowId} {t : List Var} (ht : ∀ v ∈ t, v ∈ outputs) {cs : Dict Var Val} {N : Option Nat} (hN : N ≠ some 0)
    {out : SimOut} (ho : ((cgpmI 3).simulate r t cs [] N c).1 = .ok out) : ExactSamples N t out := by
  obtain ⟨x, Z, e, hcc, hc, hd, hout, hf⟩ := chain_parts h
  obtain ⟨c, g⟩ := c
  dsimp only at e
  subst e
  exact cgpmSim Z 3 (whole x) r t cs N g out hcc.reg (.inr (chain_noUC hl hcc hc hd)) (fun v hv => hout v (ht v hv)) hN ho

theorem chain_simulate (hl : outputs.length = types.length) {c : Cgpm 3 × Rng} (h : Chain outputs types T c)
    {r : RowId} (hr : ¬ T.rows r) {t : List Var} (hne : t ≠ []) {cs : Dict Var Val}
    (hn : (t ++ Dict.keys cs).Nodup) (ht : ∀ v ∈ t, v ∈ outputs)
    (hs : ∀ vy ∈ cs, Sensible outputs types vy.1 vy.2) {N : Option Nat} (hN : N ≠ some 0) :
    ∃ out, ((cgpmI 3).simulate r t cs [] N c).1 = .ok out ∧ ExactSamples N t out := by
  have hp : ∀ {g}, c.2 = g → Positive c.1 g r cs := by
    intro g hg
    rcases cs with _ | ⟨vy, cs⟩
    · exact .inl rfl
    · refine .inr ?_
      have := chain_positive hl h hr (t := vy :: cs) (cs := []) (by simp)
        (by simpa [Dict.keys] using (List.nodup_append.1 hn).2.1) (by simpa using hs)
      rw [← hg]
      exact this
  have hall := h
  obtain ⟨x, Z, e, hcc, hc, hd, hout, hf⟩ := chain_parts h
  obtain ⟨c, g⟩ := c
  dsimp only at e
  subst e
  have hq : SimQuery 3 (whole x) t cs := ⟨hne, hn, by
    intro v hv
    rcases List.mem_append.1 hv with hv | hv
    · exact hout v (ht v hv)
    · obtain ⟨vy, h1, rfl⟩ := List.mem_map.1 hv
      exact hout _ (hs vy h1).1, fun vy hvy => askable_cell hcc ((hc _).2 (hs vy hvy).1) vy.2⟩
  obtain ⟨out, ho⟩ := cgpm_simulates Z 3 (whole x) r t cs N g hcc.reg (hf r hr) hq.simAsk
    (positive_lp (hp rfl)) hN
  exact ⟨out, ho, chain_exact hl hall ht hN ho⟩

/-- Simulated values are values of the type of their column, and not missing. -/
theorem chain_values {c : Cgpm 3 × Rng} (h : Chain outputs types T c)
    {r : RowId} {t : List Var} {cs : Dict Var Val} {N : Option Nat} {out : SimOut}
    (ho : ((cgpmI 3).simulate r t cs [] N c).1 = .ok out) {s : Dict Var Val} (hs : s ∈ samplesOf out) {v : Var}
    {y : Val} (hy : (v, y) ∈ s) (hv : v ∈ outputs) : y ≠ .nan ∧ ∀ d, (v, d) ∈ outputs.zip types → ValueOf d y := by
  obtain ⟨x, Z, e, hcc, hc, hd, hout, hf⟩ := chain_parts h
  obtain ⟨c, g⟩ := c
  dsimp only at e
  subst e
  refine cgpmVal Z (fun v y => y ≠ .nan ∧ ∀ d, (v, d) ∈ outputs.zip types → ValueOf d y) 3 (whole x) r t cs N g out
    hcc.reg (shape_good 3 (whole x) fun b hb hk o ho p e1 e2 q hq => ?_) ho s hs (v, y) hy
    (hcc.plain v ((hc v).2 hv))
  refine ⟨by simp, fun d hvd => ?_⟩
  have hin := reg_prims 3 _ hcc.reg b hb
  obtain ⟨o', ho'⟩ := hin.1.1.out
  rw [ho', List.mem_singleton] at ho
  subst ho
  have hb' := (hd (o, d) hvd).2 b ⟨hb, ho'⟩
  exact (value_iff hb' hk _).2 ((Prim.legal_iff hin.1.1 _).1 ((legal_of_kind e1 e2 (by rw [e1]; exact hk)).1 hq))

end Cgpm2.Life
