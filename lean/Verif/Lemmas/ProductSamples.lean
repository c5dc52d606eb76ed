import Verif.Lemmas.SamplesTotal

/-!
# The samples of a product, block by block (helpers for C35 and C71)
-/

namespace Cgpm2
open Spec

variable {S : Type}

theorem wellFormed_none {outs : List SimOut} (h : ∀ o ∈ outs, WellFormed none o) :
    ∃ ds : List (Dict Var Val), outs = ds.map SimOut.one := by
  induction outs with
  | nil => exact ⟨[], rfl⟩
  | cons o outs ih =>
    obtain ⟨ds, rfl⟩ := ih fun o ho => h o (by simp [ho])
    rcases o with d | l
    · exact ⟨d :: ds, rfl⟩
    · exact False.elim (h (.many l) (by simp))

/-- The samples of a product, position by position. -/
theorem mergeSamples_samples {N : Option Nat} {outs : List SimOut} {out : SimOut}
    (hw : ∀ o ∈ outs, WellFormed N o ∧ (samplesOf o).length = N.getD 1)
    (ho : mergeSamples outs = .ok out) :
    samplesOf out = (List.range (N.getD 1)).map fun i : Nat =>
      mergedl (outs.map fun o => (samplesOf o).getD i []) := by
  rcases outs with _ | ⟨o, outs⟩
  · cases ho
  rcases N with _ | n
  · obtain ⟨ds, hds⟩ := wellFormed_none fun o ho => (hw o ho).1
    rcases ds with _ | ⟨d, ds⟩
    · cases hds
    rw [List.map_cons, List.cons.injEq] at hds
    obtain ⟨rfl, rfl⟩ := hds
    have hm : ∀ f : SimOut → Except Err (Dict Var Val), (∀ d, f (.one d) = .ok d) →
        (ds.map SimOut.one).mapM f = .ok ds := by
      intro f hf
      clear hw ho
      induction ds with
      | nil => rfl
      | cons d ds ih => rw [List.map_cons, List.mapM_cons, ih, hf]; rfl
    unfold mergeSamples at ho
    dsimp only at ho
    rw [hm _ fun _ => rfl] at ho
    cases ho
    simp [samplesOf, Function.comp_def]
  · rcases o with d | l
    · exact False.elim (hw (.one d) (by simp)).1
    unfold mergeSamples at ho
    dsimp only at ho
    rcases h' : mergeSamplesMany (.many l :: outs) with e | ls <;> rw [h'] at ho
    · cases ho
    · cases ho
      have he := mergeSamplesMany_eq h' fun o ho => (hw o ho).1
      rw [he] at hw ⊢
      have hlen : ∀ l ∈ ls, l.length = n := fun l hl => (hw (.many l) (List.mem_map.2 ⟨l, hl, rfl⟩)).2
      have hne : ls ≠ [] := by rintro rfl; cases he
      rw [zipStar_eq hne hlen]
      simp [samplesOf, Function.comp_def]

theorem get?_mergedl_mid {K V : Type} [DecidableEq K] {l1 l2 : List (Dict K V)} {d : Dict K V}
    (hn : ∀ e ∈ l1 ++ d :: l2, (Dict.keys e).Nodup) {v : K} (hv : ∀ e ∈ l1 ++ l2, Dict.get? e v = none) :
    Dict.get? (mergedl (l1 ++ d :: l2)) v = Dict.get? d v := by
  induction l2 using List.reverseRecOn with
  | nil =>
    rw [mergedl_snoc, Dict.get?_update _ _ (hn d (by simp))]
    have : Dict.get? (mergedl l1) v = none := by
      rw [Dict.get?_eq_none_iff, mem_keys_mergedl]
      rintro ⟨e, he, hk⟩
      exact (Dict.get?_eq_none_iff _ _).1 (hv e (by simp [he])) hk
    rw [this]
    cases Dict.get? d v <;> rfl
  | append_singleton l2 e ih =>
    rw [show l1 ++ d :: (l2 ++ [e]) = (l1 ++ d :: l2) ++ [e] by simp, mergedl_snoc,
      Dict.get?_update _ _ (hn e (by simp)), hv e (by simp),
      ih (fun e' he' => hn e' (by simp at he' ⊢; tauto)) (fun e' he' => hv e' (by simp at he' ⊢; tauto))]

/-- One column of the samples of a product comes from one block. -/
theorem mergeSamples_column {N : Option Nat} {l1 l2 : List SimOut} {o out : SimOut}
    (hw : ∀ o' ∈ l1 ++ o :: l2, WellFormed N o' ∧ (samplesOf o').length = N.getD 1)
    (hn : ∀ o' ∈ l1 ++ o :: l2, ∀ s ∈ samplesOf o', (Dict.keys s).Nodup)
    (ho : mergeSamples (l1 ++ o :: l2) = .ok out) {v : Var}
    (hv : ∀ o' ∈ l1 ++ l2, ∀ s ∈ samplesOf o', v ∉ Dict.keys s) :
    (samplesOf out).map (fun s => Dict.get? s v) = (samplesOf o).map fun s => Dict.get? s v := by
  rw [mergeSamples_samples hw ho]
  have hlen := fun o' ho' => (hw o' ho').2
  have hz : ∀ o' ∈ l1 ++ l2, ∀ i : Nat, Dict.get? ((samplesOf o').getD i []) v = none := by
    intro o' ho' i
    rw [List.getD_eq_getElem?_getD]
    rcases hx : (samplesOf o')[i]? with _ | s
    · rfl
    · exact (Dict.get?_eq_none_iff _ _).2 (hv o' ho' s (List.mem_of_getElem? hx))
  have hl := hlen o (by simp)
  apply List.ext_getElem?
  intro i
  simp only [List.map_map, List.getElem?_map]
  by_cases hi : i < N.getD 1
  · rw [List.getElem?_range hi, List.getElem?_eq_getElem (by omega), Option.map_some, Option.map_some]
    congr 1
    have hnd : ∀ d ∈ (l1 ++ o :: l2).map (fun o => (samplesOf o).getD i []), (Dict.keys d).Nodup := by
      intro d hd
      obtain ⟨o', ho', rfl⟩ := List.mem_map.1 hd
      rw [List.getD_eq_getElem?_getD]
      rcases hx : (samplesOf o')[i]? with _ | s
      · exact List.nodup_nil
      · exact hn o' ho' s (List.mem_of_getElem? hx)
    simp only [Function.comp_apply, List.map_append, List.map_cons] at hnd ⊢
    rw [get?_mergedl_mid hnd]
    · rw [List.getD_eq_getElem?_getD, List.getElem?_eq_getElem (by omega), Option.getD_some]
    · intro d hd
      rw [← List.map_append] at hd
      obtain ⟨o', ho', rfl⟩ := List.mem_map.1 hd
      exact hz o' ho' i
  · rw [List.getElem?_eq_none (by simp; omega), List.getElem?_eq_none (by omega)]
    rfl

theorem forall₂_append_left {α β : Type} {R : α → β → Prop} {a b : List α} {l : List β}
    (h : List.Forall₂ R (a ++ b) l) :
    ∃ l1 l2, List.Forall₂ R a l1 ∧ List.Forall₂ R b l2 ∧ l = l1 ++ l2 := by
  induction a generalizing l with
  | nil => exact ⟨[], l, .nil, h, rfl⟩
  | cons x a ih =>
    rw [List.cons_append] at h
    obtain ⟨y, l', h1, h2, rfl⟩ := List.forall₂_cons_left_iff.1 h
    obtain ⟨l1, l2, h3, h4, rfl⟩ := ih h2
    exact ⟨y :: l1, l2, .cons h1 h3, h4, rfl⟩

/-- One block's columns among the samples of a product are those of the block's own answer. -/
theorem product_column {I : Iface S} {T : Tab S} {P : S → Prop} (hS : SimLaw I T P) {p : Product S}
    {r : RowId} {t : List Var} {cs : Dict Var Val} {N : Option Nat} {g : Rng} {out : SimOut}
    (hd : (p.cgpms.flatMap I.outputs).Nodup)
    (hreg : ∀ c ∈ p.cgpms, T.Reg c ∧ (T.Fresh c r ∨ P c)) (hN : N ≠ some 0)
    (ho : (Product.simulate I r t cs [] N (p, g)).1 = .ok out) {c : S} (hc : c ∈ p.cgpms)
    (hT : onlyVars (I.outputs c) t ≠ []) :
    ∃ g' oc, (I.simulate r (onlyVars (I.outputs c) t) (only (I.outputs c) cs) [] N (c, g')).1 = .ok oc ∧
      ∀ v ∈ onlyVars (I.outputs c) t,
        (samplesOf out).map (fun s => Dict.get? s v) = (samplesOf oc).map fun s => Dict.get? s v := by
  obtain ⟨outs, h1, h2⟩ := Py.bind_ok (show ((Product.each (simulateOne I r t cs [] N) >>=
    fun samples => Py.lift (mergeSamples samples)) (p, g)).1 = .ok out from ho)
  have h1 : (Py.each (simulateOne I r t cs [] N) (p.cgpms, g)).1 = .ok outs := h1
  have h3 := Py.each_post (P := fun c => T.Reg c ∧ (T.Fresh c r ∨ P c))
    (Q := fun c o => ExactSamples N (onlyVars (I.outputs c) t) o ∧ (onlyVars (I.outputs c) t ≠ [] →
      ∃ g', (I.simulate r (onlyVars (I.outputs c) t) (only (I.outputs c) cs) [] N (c, g')).1 = .ok o))
    (fun c g a hc ha => by
      have ha : ((if onlyVars (I.outputs c) t = [] then (Pure.pure (noValues N) : Py (S × Rng) SimOut)
        else I.simulate r (onlyVars (I.outputs c) t) (only (I.outputs c) cs) (only (I.inputs c) []) N)
        (c, g)).1 = .ok a := by
        rw [← ha]
        unfold simulateOne
        rw [Py.get_bind]
        dsimp only
        rcases N with _ | n <;> rfl
      split at ha
      · next hT =>
        cases ha
        rw [hT]
        exact ⟨exact_noValues N, fun h => absurd rfl h⟩
      · exact ⟨hS c r _ _ N g a hc.1 hc.2 (fun v hv => (mem_onlyVars.1 hv).2) hN ha, fun _ => ⟨g, ha⟩⟩)
    p.cgpms g outs hreg h1
  have h2 : mergeSamples outs = .ok out := h2
  obtain ⟨c1, c2, hcs⟩ := List.append_of_mem hc
  rw [hcs] at h3 hd
  obtain ⟨l1, l2', h4, h5, rfl⟩ := forall₂_append_left h3
  obtain ⟨o, l2, h6, h7, rfl⟩ := List.forall₂_cons_left_iff.1 h5
  obtain ⟨g', hg'⟩ := h6.2 hT
  refine ⟨g', o, hg', fun v hv => ?_⟩
  have hE : ∀ o' ∈ l1 ++ o :: l2, ∃ c', ExactSamples N (onlyVars (I.outputs c') t) o' := by
    intro o' ho'
    obtain ⟨c', h⟩ := forall₂_exists h3 ho'
    exact ⟨c', h.1⟩
  refine mergeSamples_column (N := N) (fun o' ho' => ?_) (fun o' ho' s hs => ?_) h2 ?_
  · obtain ⟨c', h⟩ := hE o' ho'
    exact ⟨h.1, h.2.1⟩
  · obtain ⟨c', h⟩ := hE o' ho'
    exact (h.2.2 s hs).2
  · intro o' ho' s hs hk
    have hvc := (mem_onlyVars.1 hv).2
    rw [List.flatMap_append, List.flatMap_cons, List.nodup_append] at hd
    rcases List.mem_append.1 ho' with h' | h'
    · obtain ⟨c', hc', h⟩ := forall₂_exists_mem h4 h'
      have := (mem_onlyVars.1 (((h.1.2.2 s hs).1 v).1 hk)).2
      exact hd.2.2 v (List.mem_flatMap.2 ⟨c', hc', this⟩) v (by simp [hvc]) rfl
    · obtain ⟨c', hc', h⟩ := forall₂_exists_mem h7 h'
      have := (mem_onlyVars.1 (((h.1.2.2 s hs).1 v).1 hk)).2
      exact (List.nodup_append.1 hd.2.1).2.2 v hvc v (List.mem_flatMap.2 ⟨c', hc', this⟩) rfl

/-- The samples of an unheld row come sorted by their cluster. -/
theorem mix_sorted {Z : List Var} {n : Nat} {c : Cgpm (n + 1)} (h : (cgpmTab Z (n + 1)).Reg c) {z : Var}
    {supp : List Int} (hm : IsMixture c z supp) {r : RowId} (hr : (cgpmTab Z (n + 1)).Fresh c r)
    {t : List Var} {cs : Dict Var Val} (ht : ∀ v ∈ t, v ∈ (cgpmI (n + 1)).outputs c) (hz : z ∈ t)
    (hcs : z ∉ Dict.keys cs) {N : Option Nat} (hN : N ≠ some 0) {g : Rng} {out : SimOut}
    (ho : ((cgpmI (n + 1)).simulate r t cs [] N (c, g)).1 = .ok out) :
    (samplesOf out).Pairwise fun a b => ∃ i j : Int, Dict.get? a z = some (.num (i : ℚ)) ∧
      Dict.get? b z = some (.num (j : ℚ)) ∧ i ≤ j := by
  cases c with
  | prim p => exact hm.elim
  | product p => exact hm.elim
  | finArray p => exact hm.elim
  | flexArray p => exact hm.elim
  | finMix m =>
    have hreg : (finMixTab (cgpmI n) (cgpmSem n) Z (cgpmTab Z n)).Reg m := h
    have L := cgpmLaws n
    obtain rfl : z = m.indexer := by simp [RowMix.indexer, hm.1]
    have ho : (Py.inside _ (RowMix.simulate (finArrayI (cgpmI n)) r t cs [] N) (m, g)).1 = .ok out := ho
    rw [inside_fst] at ho
    unfold RowMix.simulate at ho
    rw [Py.get_bind] at ho
    dsimp only at ho
    rw [finMix_unheld hr] at ho
    dsimp only at ho
    rw [(Dict.get?_eq_none_iff _ _).2 hcs] at ho
    dsimp only at ho
    refine (simulateFresh_exact L (finArrayLaws L) (finArrLaws _ _) (cgpmTLaws Z n) (cgpmSim Z n) hreg
      ?_ (finMix_unheld hr) ?_ hN ho).2 hz
    · exact finMix_get hreg
    · intro v hv
      have : v ∈ m.rowDivide.outputs ++ (finArrayI (cgpmI n)).outputs m.array := ht v hv
      rw [hreg.out] at this
      simpa using this
  | flexMix m =>
    have hreg : (flexMixTab (cgpmI n) (cgpmSem n) Z (cgpmTab Z n)).Reg m := h
    have L := cgpmLaws n
    obtain rfl : z = m.indexer := by simp [RowMix.indexer, hm.1]
    have ho : (Py.inside _ (RowMix.simulate (flexArrayI (cgpmI n)) r t cs [] N) (m, g)).1 = .ok out := ho
    rw [inside_fst] at ho
    unfold RowMix.simulate at ho
    rw [Py.get_bind] at ho
    dsimp only at ho
    rw [flexMix_unheld hr] at ho
    dsimp only at ho
    rw [(Dict.get?_eq_none_iff _ _).2 hcs] at ho
    dsimp only at ho
    refine (simulateFresh_exact L (flexArrayLaws L) (flexArrLaws L) (cgpmTLaws Z n) (cgpmSim Z n) hreg
      ?_ (flexMix_unheld hr) ?_ hN ho).2 hz
    · exact fun z _ _ => ⟨_, rfl⟩
    · intro v hv
      have : v ∈ m.rowDivide.outputs ++ (flexArrayI (cgpmI n)).outputs m.array := ht v hv
      rw [hreg.out] at this
      simpa using this

end Cgpm2
