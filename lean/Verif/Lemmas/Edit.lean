import Verif.Lemmas.Frame
import Verif.Spec.Edits

/-!
# Taking out and adding columns (helpers)
-/

namespace Cgpm2
open Spec

variable {S : Type}

/-- `c'` holds the cells of `c` that belong to its outputs, and nothing else. -/
structure Edit (I : Iface S) (T : Tab S) (c c' : S) : Prop where
  reg : T.Reg c'
  cell : ∀ r v, T.cell c' r v = if v ∈ I.outputs c' then T.cell c r v else none
  present : ∀ r, T.present c' r ↔ T.present c r
  scored : Scored I c → Scored I c'

section
variable {I : Iface S} {M : Sem S} {Z : List Var} {T : Tab S}

theorem Edit.fresh {c c' : S} (h : Edit I T c c') {r : RowId} (hf : T.Fresh c r) : T.Fresh c' r := by
  intro v
  rw [h.cell]
  split
  · exact hf v
  · rfl

/-- A relation between two dictionaries with the same keys. -/
def Alike (P : S → S → Prop) (d d' : Dict Val S) : Prop :=
  List.Forall₂ (fun kc kc' => kc.1 = kc'.1 ∧ P kc.2 kc'.2) d d'

theorem Alike.keys {P : S → S → Prop} {d d' : Dict Val S} (h : Alike P d d') :
    Dict.keys d' = Dict.keys d := by
  induction h with
  | nil => rfl
  | cons h _ ih => simp only [Dict.keys, List.map_cons] at ih ⊢; rw [ih, h.1]

theorem Alike.get {P : S → S → Prop} {d d' : Dict Val S} (h : Alike P d d') (k : Val) :
    (Dict.get? d k = none ∧ Dict.get? d' k = none) ∨
      ∃ c c', Dict.get? d k = some c ∧ Dict.get? d' k = some c' ∧ P c c' := by
  induction h with
  | nil => exact .inl ⟨rfl, rfl⟩
  | @cons kc kc' d d' h _ ih =>
    obtain ⟨k1, c⟩ := kc
    obtain ⟨k2, c'⟩ := kc'
    obtain ⟨rfl, h⟩ := h
    rw [Dict.get?_cons, Dict.get?_cons]
    by_cases hk : k1 = k
    · exact .inr ⟨c, c', by simp [hk], by simp [hk], h⟩
    · simpa [hk] using ih

theorem flexMix_edit (L : Laws I M) (K : TLaws I M Z T) (F : Frame I M T) {m : FlexMix S}
    (h : (flexMixTab I M Z T).Reg m) {b : S} {cs : Dict Val S} (hb : Edit I T m.array.base b)
    (hx : m.indexer ∉ I.outputs b)
    (hc : Alike (fun c c' => Edit I T c c' ∧ I.outputs c' = I.outputs b ∧ M.shape c' = M.shape b)
      m.array.cgpms cs) :
    Edit (flexMixI I) (flexMixTab I M Z T) m
      { m with array := { m.array with base := b, cgpms := cs } } := by
  obtain ⟨b1, b2, b3⟩ := flexMix_base L K h
  have hE := L.strip _ (K.inv _ hb.reg)
  have hbs : Scored I m.array.base := ⟨0, h.inv.2.1.1.2⟩
  -- the components
  have hcomp : ∀ k, Edit I T (m.array.comp M k)
      (({ m.array with base := b, cgpms := cs } : FlexArray S).comp M k) ∧
      I.outputs (({ m.array with base := b, cgpms := cs } : FlexArray S).comp M k) = I.outputs b ∧
      M.shape (({ m.array with base := b, cgpms := cs } : FlexArray S).comp M k) = M.shape b := by
    intro k
    unfold FlexArray.comp
    dsimp only
    rcases hc.get k with ⟨e1, e2⟩ | ⟨c, c', e1, e2, h1, h2⟩
    · rw [e1, e2]
      dsimp only [Option.getD_none]
      refine ⟨⟨K.reg_E _ _ hE hb.reg, fun r v => ?_, fun r => ?_, fun _ => ?_⟩,
        (L.outputs_E hE).symm, (L.shape_E hE).symm⟩
      · rw [← K.cell_E _ _ hE hb.reg, ← K.cell_E _ _ b2 b1, ← L.outputs_E hE, hb.cell]
      · rw [← K.present_E _ _ r hE hb.reg, ← K.present_E _ _ r b2 b1, hb.present]
      · exact (L.scored_E hE).1 (hb.scored hbs)
    · rw [e1, e2]
      exact ⟨h1, h2⟩
  have hsc : ∀ k, Scored I (m.array.comp M k) := fun k => (h.inv.2.1.2.1 k).2.1
  have hout : (flexMixI I).outputs { m with array := { m.array with base := b, cgpms := cs } } =
      m.rowDivide.outputs ++ I.outputs b := rfl
  have hinv : (flexArraySem I M).Inv { m.array with base := b, cgpms := cs } := by
    refine ⟨⟨K.inv _ hb.reg, F.zero _ hb.reg (fun r => hb.fresh (b3 r)) (hb.scored hbs)⟩,
      fun k => ⟨K.inv _ (hcomp k).1.reg, (hcomp k).1.scored (hsc k), (hcomp k).2.2⟩, ?_,
      h.inv.2.1.2.2.2⟩
    rw [hc.keys]; exact h.inv.2.1.2.2.1
  refine ⟨?_, fun r v => ?_, fun r => Iff.rfl, fun _ => ?_⟩
  · exact {
      inv := ⟨h.inv.1, hinv, h.inv.2.2.1, trivial⟩
      inputs := h.inputs
      divides := h.divides
      x_eq := h.x_eq
      x_mem := h.x_mem
      x_out := hx
      inputsX := K.inputs _ hb.reg
      nodup := K.nodup _ hb.reg
      comp := fun k c hk => by
        cases hk
        exact ⟨(hcomp k).1.reg, (hcomp k).2.1⟩
      data := h.data
      idx := h.idx
      books := fun r z hz => by
        obtain ⟨k, c, hc, hp⟩ := h.books r z hz
        refine ⟨k, _, rfl, ?_⟩
        cases hc
        exact ((hcomp z).1.present r).2 hp
      fresh := fun r k c hk hr => by
        cases hk
        exact (hcomp k).1.fresh (h.fresh r k _ rfl hr) }
  · rw [hout, h.out]
    simp only [flexMixTab, rowMixTab, List.mem_append, List.mem_singleton]
    change (if v = m.indexer then _ else _) = _
    by_cases hv : v = m.indexer
    · simp [hv]
    · simp only [hv, false_or]
      rcases hz : Dict.get? m.rowidToComponent r with _ | z
      · simp
      · simp only [Option.bind_some]
        change T.cell (({ m.array with base := b, cgpms := cs } : FlexArray S).comp M z) r v =
          if v ∈ I.outputs b then T.cell (m.array.comp M z) r v else none
        rw [(hcomp z).1.cell, (hcomp z).2.1]
  · exact (RowMix.scored_iff (AI := flexArrayI I) (toM := FlexMix.toMetadata I)
      (fromM := FlexMix.fromMetadata I)
      (m := { m with array := { m.array with base := b, cgpms := cs } }) h.inv.1).2
      (FlexArray.scored hinv)

/-! ## Products -/

theorem validate_of_nodup {l : List S} (hi : ∀ c ∈ l, I.inputs c = [])
    (hn : (l.flatMap I.outputs).Nodup) : Product.validate I l = .ok () := by
  have : l.flatMap I.inputs = [] := by
    rw [List.flatMap_eq_nil_iff]; exact hi
  simp [Product.validate, hn, this]

theorem product_of_list (K : TLaws I M Z T) {l : List S} (hl : ∀ c ∈ l, T.Reg c) (hne : l ≠ [])
    (hn : (l.flatMap I.outputs).Nodup) :
    Product.init I l = .ok ⟨l⟩ ∧ (productTab I T).Reg ⟨l⟩ := by
  have hv := validate_of_nodup (I := I) (fun c hc => K.inputs c (hl c hc)) hn
  exact ⟨by unfold Product.init; rw [hv]; rfl, hl, hv, hne⟩

theorem nodup_filter {l : List S} (hn : (l.flatMap I.outputs).Nodup) (q : S → Bool) :
    ((l.filter q).flatMap I.outputs).Nodup :=
  hn.sublist (List.filter_sublist.flatMap _)

theorem product_filter (K : TLaws I M Z T) {p : Product S} (hp : (productTab I T).Reg p)
    (q : S → Bool) (hne : p.cgpms.filter q ≠ []) :
    Product.init I (p.cgpms.filter q) = .ok ⟨p.cgpms.filter q⟩ ∧
      Edit (productI I) (productTab I T) p ⟨p.cgpms.filter q⟩ := by
  have hn := Product.validate_nodup hp.2.1
  have hl : ∀ c ∈ p.cgpms.filter q, T.Reg c := fun c hc => hp.1 c (List.mem_filter.1 hc).1
  obtain ⟨h1, h2⟩ := product_of_list K hl hne (nodup_filter hn q)
  refine ⟨h1, h2, fun r v => ?_, fun r => Iff.rfl, fun hs => ?_⟩
  · change ProdTab.cell T (p.cgpms.filter q) r v = if v ∈ (p.cgpms.filter q).flatMap I.outputs then
      ProdTab.cell T p.cgpms r v else none
    split
    · next hv =>
      obtain ⟨c, hc, hv⟩ := List.mem_flatMap.1 hv
      rw [ProdTab.cell_of_mem K hl (nodup_filter hn q) hc hv,
        ProdTab.cell_of_mem K hp.1 hn (List.mem_filter.1 hc).1 hv]
    · next hv => exact ProdTab.cell_of_not_mem K hl hv r
  · refine (sumScore_fin_iff I.logpdfScore _).2 fun c hc => ?_
    exact (sumScore_fin_iff I.logpdfScore p.cgpms).1 hs c (List.mem_filter.1 hc).1

theorem product_append (K : TLaws I M Z T) {p : Product S} (hp : (productTab I T).Reg p) {c : S}
    (hc : T.Reg c) (hf : ∀ r, T.Fresh c r) (hs : Scored I c)
    (hx : ∀ v ∈ I.outputs c, v ∉ p.cgpms.flatMap I.outputs) :
    Product.init I (p.cgpms ++ [c]) = .ok ⟨p.cgpms ++ [c]⟩ ∧
      Edit (productI I) (productTab I T) p ⟨p.cgpms ++ [c]⟩ := by
  have hn := Product.validate_nodup hp.2.1
  have hl : ∀ d ∈ p.cgpms ++ [c], T.Reg d := by
    intro d hd
    rcases List.mem_append.1 hd with hd | hd
    · exact hp.1 d hd
    · obtain rfl := List.mem_singleton.1 hd
      exact hc
  have hn' : ((p.cgpms ++ [c]).flatMap I.outputs).Nodup := by
    rw [List.flatMap_append, List.nodup_append]
    refine ⟨hn, by simpa using K.nodup c hc, ?_⟩
    rintro v hv w hw rfl
    exact hx v (by simpa using hw) hv
  obtain ⟨h1, h2⟩ := product_of_list K hl (by simp) hn'
  refine ⟨h1, h2, fun r v => ?_, fun r => Iff.rfl, fun hs' => ?_⟩
  · have hce : ProdTab.cell T (p.cgpms ++ [c]) r v = ProdTab.cell T p.cgpms r v := by
      unfold ProdTab.cell
      rw [List.findSome?_append]
      simp [hf r v]
    change ProdTab.cell T (p.cgpms ++ [c]) r v = if v ∈ (p.cgpms ++ [c]).flatMap I.outputs then
      ProdTab.cell T p.cgpms r v else none
    split
    · exact hce
    · next hv => exact ProdTab.cell_of_not_mem K hl hv r
  · refine (sumScore_fin_iff I.logpdfScore _).2 fun d hd => ?_
    rcases List.mem_append.1 hd with hd | hd
    · exact (sumScore_fin_iff I.logpdfScore p.cgpms).1 hs' d hd
    · obtain rfl := List.mem_singleton.1 hd
      exact hs

end

end Cgpm2
