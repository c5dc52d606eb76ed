import Verif.Lemmas.HeldCells
import Verif.Lemmas.Tune

/-!
# Tidy models keep a table (helpers)
-/

namespace Cgpm2
open Spec

theorem reg_column {Z : List Var} {n : Nat} {c : Cgpm n} (h : (cgpmTab Z n).Reg c) {o : Var}
    (ho : o ∈ (cgpmI n).outputs c) {α : Type} {f : Py (List Prim × Rng) α} (hf : ∀ ps g, RetunedList ps (f (ps, g)).2.1) (g : Rng) :
    (cgpmTab Z n).Reg (onColumn o f (c, g)).2.1 := by
  unfold onColumn
  dsimp only
  rcases hw : cgpmsByOutput n c o with e | refs
  · exact h
  · exact (cgpm_tune Z n c h o ho refs hw _ (hf refs.objs g)).reg

theorem reg_prim {Z : List Var} {p : Prim} (h : LegallyReachable p) (hi : p.inputs = [])
    (hz : ∀ v ∈ p.outputs, v ∈ Z ↔ p.kind = .crp) : (primTab Z).Reg p := by
  refine ⟨Prim.good_of_legally h, hi, fun hk v hv => (hz v hv).2 hk, fun v hv hvz r x hx => ?_⟩
  have hk := (hz v hv).1 hvz
  cases p with
  | crp c =>
    simp only [Prim.data] at hx
    rw [Prim.get?_map_data] at hx
    obtain ⟨k, -, rfl⟩ := Option.map_eq_some_iff.1 hx
    exact ⟨k, rfl⟩
  | _ => cases hk

theorem tidy_reg {Z : List Var} {n : Nat} {c : Cgpm n} (h : Tidy Z n c) : (cgpmTab Z n).Reg c := by
  induction h with
  | prim0 h hi hz => exact reg_prim h hi hz
  | prim h hi hz => exact reg_prim h hi hz
  | @product n cs p hc hne h ih =>
    have : Product.validate (cgpmI n) cs = .ok () ∧ p = ⟨cs⟩ := by
      unfold Product.init at h
      rcases hv : Product.validate (cgpmI n) cs with e | u
      · rw [hv] at h; cases h
      · rw [hv] at h
        simp only [bind, Except.bind, pure, Except.pure, Except.ok.injEq] at h
        exact ⟨rfl, h.symm⟩
    obtain ⟨h1, rfl⟩ := this
    exact ⟨ih, h1, hne⟩
  | @finMix n d cs m hd hi hk hz he hc hce hco hx h ih =>
    have K := cgpmTLaws Z n
    obtain ⟨x, h1, h2, rfl, h4⟩ := Prim.init_finMix h
    obtain ⟨c0, cs, rfl⟩ := List.exists_cons_of_ne_nil h2
    have hxx : RowMix.indexer (⟨d, ⟨c0 :: cs, x, []⟩, []⟩ : FinMix (Cgpm n)) = x := by
      simp [RowMix.indexer, h1]
    have hget : ∀ k c, (finArr (S := Cgpm n)).get ⟨c0 :: cs, x, []⟩ k = some c → c ∈ c0 :: cs := by
      intro k c hk
      obtain ⟨j, -, hj, -⟩ := FinArray.get_some hk
      exact List.mem_of_getElem? hj
    exact {
      inv := ⟨Prim.good_of_legally hd, ⟨fun c hc => K.inv _ (ih c hc), h2, by simp⟩, by simp, hk, by
        simpa [finArraySem, Shape.count] using h4⟩
      inputs := hi
      divides := .inr hk
      x_eq := by rw [hxx]; rfl
      x_mem := by rw [hxx]; exact hz x (by simp [h1])
      x_out := by rw [hxx]; exact hx c0 (by simp) x (by simp [h1])
      inputsX := K.inputs _ (ih c0 (by simp))
      nodup := K.nodup _ (ih c0 (by simp))
      comp := fun k c hk => ⟨ih c (hget k c hk), hco c (hget k c hk) c0 (by simp)⟩
      data := fun r => by simp [he, Dict.get?]
      idx := fun r => by simp [finArr]
      books := fun r z hz => by simp [Dict.get?] at hz
      fresh := fun r k c hk _ => (holdsNothing_iff K (ih c (hget k c hk)) r).1
        (hce c (hget k c hk) r) }
  | @flexMix n d b m hd hi hk hz he hb hbe hs hx h ih =>
    have K := cgpmTLaws Z n
    have L := cgpmLaws n
    have : m = ⟨d, FlexArray.init b (d.outputs.headD 0), []⟩ := by
      unfold FlexMix.init at h
      split at h
      · cases h
      · simpa using h.symm
    subst this
    obtain ⟨x, h1⟩ := (Prim.good_of_legally hd).1.out
    have hxx : RowMix.indexer (⟨d, FlexArray.init b (d.outputs.headD 0), []⟩ : FlexMix (Cgpm n)) = x := by
      simp [RowMix.indexer, h1]
    have hget : ∀ k c, (flexArr (cgpmSem n)).get (FlexArray.init b (d.outputs.headD 0)) k = some c →
        c = (cgpmSem n).strip b := by
      intro k c hk
      cases hk
      rfl
    have hst := L.strip _ (K.inv _ ih)
    have hrs := K.reg_E _ _ hst ih
    have hsc : (cgpmI n).logpdfScore ((cgpmSem n).strip b) = .ok (.fin 0) :=
      (L.score_E _ _ hst).symm.trans hs
    exact {
      inv := ⟨Prim.good_of_legally hd, ⟨⟨K.inv _ ih, hs⟩, fun k => ⟨L.inv_strip (K.inv _ ih),
        ⟨0, hsc⟩, (L.shape_E hst).symm⟩,
        by simp [FlexArray.init], by simp [FlexArray.init]⟩, by simp, trivial⟩
      inputs := hi
      divides := hk
      x_eq := rfl
      x_mem := by rw [hxx]; exact hz x (by simp [h1])
      x_out := by rw [hxx]; exact hx x (by simp [h1])
      inputsX := K.inputs _ ih
      nodup := K.nodup _ ih
      comp := fun k c hk => by
        rw [hget k c hk]
        exact ⟨hrs, (L.outputs_E hst).symm⟩
      data := fun r => by simp [he, Dict.get?]
      idx := fun r => by simp [flexArr, FlexArray.init]
      books := fun r z hz => by simp [Dict.get?] at hz
      fresh := fun r k c hk _ => by
        rw [hget k c hk]
        intro v
        rw [← K.cell_E _ _ hst ih]
        exact (holdsNothing_iff K ih r).1 (hbe r) v }
  | @observe n c c' h r o i g g' hw ho ih => exact ((cgpmTLaws Z n).observe _ _ _ _ _ _ _ ih hw ho).1
  | @call n c h a ha g ih => exact reg_call (cgpmLaws n) (cgpmTLaws Z n) ih ha g
  | @remove n c c' h o hr ho ih =>
    obtain ⟨c1, h1, h2, -⟩ := (removeLaw Z n).ok c o ih hr
    rw [h1] at ho
    cases ho
    exact h2.reg
  | @add n c c' h new hn he ha hx ho ih ihn =>
    obtain ⟨c1, h1, h2, -⟩ := (addLaw Z n).ok c new ih ha ihn
      (fun r => (holdsNothing_iff (primTLaws Z) ihn r).1 (he r)) hx
    rw [h1] at ho
    cases ho
    exact h2.reg
  | @hypers n c h o ho grids g ih => exact reg_column ih ho (transitionHypers_retuned grids) g
  | @setHypers n c h o ho hypers g ih => exact reg_column ih ho (setHypersAll_retuned hypers) g

end Cgpm2
