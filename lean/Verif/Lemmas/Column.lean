import Verif.Lemmas.Walks

/-!
# The cells of a column are the data of its primitives (helpers)
-/

namespace Cgpm2
open Spec

/-- The data held for a row by the primitives of a column. -/
def hits (o : Var) (r : RowId) (ps : List Prim) : List Val :=
  ps.filterMap fun p => if p.outputs = [o] then Dict.get? p.data r else none

theorem hits_append (o : Var) (r : RowId) (a b : List Prim) :
    hits o r (a ++ b) = hits o r a ++ hits o r b := List.filterMap_append

theorem hits_flatMap {S : Type} (o : Var) (r : RowId) (prims : S → List Prim) (l : List S) :
    hits o r (l.flatMap prims) = l.flatMap fun c => hits o r (prims c) := by
  induction l with
  | nil => rfl
  | cons a l ih => rw [List.flatMap_cons, hits_append, ih, List.flatMap_cons]

theorem hits_prim {p : Prim} (h : p.Inv) (o : Var) (r : RowId) :
    hits o r [p] = (if o ∈ p.outputs then Dict.get? p.data r else none).toList := by
  obtain ⟨v, hv⟩ := h.out
  simp only [hits, List.filterMap_cons, List.filterMap_nil, hv, List.mem_singleton, List.cons.injEq,
    and_true]
  by_cases hvo : v = o
  · subst hvo
    simp only [if_true]
    cases Dict.get? p.data r <;> rfl
  · rw [if_neg hvo, if_neg (fun e => hvo e.symm)]
    rfl

theorem flatMap_nil {α β : Type} {l : List α} {f : α → List β} (h : ∀ a ∈ l, f a = []) :
    l.flatMap f = [] := by
  rw [List.flatMap_eq_nil_iff]; exact h

theorem flatMap_single {α β : Type} {l : List α} {f : α → List β} {j : Nat} (hj : j < l.length)
    (h : ∀ i (hi : i < l.length), i ≠ j → f l[i] = []) : l.flatMap f = f l[j] := by
  induction l generalizing j with
  | nil => simp at hj
  | cons a l ih =>
    rw [List.flatMap_cons]
    cases j with
    | zero =>
      rw [flatMap_nil fun b hb => by
        obtain ⟨i, hi, rfl⟩ := List.getElem_of_mem hb
        have := h (i + 1) (by simpa using hi) (by omega)
        simpa using this]
      simp
    | succ j =>
      have h0 := h 0 (by simp) (by omega)
      simp only [List.getElem_cons_zero] at h0
      rw [h0, List.nil_append, ih (j := j) (by simpa using hj) fun i hi hij => by
        have := h (i + 1) (by simpa using hi) (by omega)
        simpa using this]
      simp

variable {S : Type} {I : Iface S} {M : Sem S} {Z : List Var} {T : Tab S}

theorem mixReg_out {A : Type} {AI : Iface A} {MA : Sem A} {X : Prim → Nat → Prop} {R : Arr A S}
    {m : RowMix A} (h : MixReg AI I MA X R Z T m) : m.rowDivide.outputs = [m.indexer] := by
  obtain ⟨x, hx⟩ := (mixReg_x h).1.out
  rw [RowMix.indexer, hx]
  rfl

theorem node_hits (L : Laws I M) (K : TLaws I M Z T) {prims : S → List Prim}
    {primsN : Node S → List Prim}
    (e1 : ∀ p, primsN (.prim p) = [p]) (e2 : ∀ p, primsN (.product p) = p.cgpms.flatMap prims)
    (e5 : ∀ m, primsN (.finMix m) = m.rowDivide :: m.array.cgpms.flatMap prims)
    (e6 : ∀ m, primsN (.flexMix m) =
      m.rowDivide :: ((Dict.values m.array.cgpms).flatMap prims ++ prims m.array.base))
    (h : ∀ c, T.Reg c → ∀ o r, hits o r (prims c) = (T.cell c r o).toList) (c : Node S)
    (hc : (nodeTab I M Z T).Reg c) (o : Var) (r : RowId) :
    hits o r (primsN c) = ((nodeTab I M Z T).cell c r o).toList := by
  cases c with
  | prim p => rw [e1]; exact hits_prim hc.1.1 o r
  | product p =>
    rw [e2, hits_flatMap]
    obtain ⟨h1, h2, -⟩ : (productTab I T).Reg p := hc
    have hn := Product.validate_nodup h2
    change _ = (ProdTab.cell T p.cgpms r o).toList
    have hnone : ∀ c ∈ p.cgpms, o ∉ I.outputs c → T.cell c r o = none := fun c hc ho =>
      K.cell_out _ _ _ (h1 c hc) ho
    by_cases ho : ∃ c ∈ p.cgpms, o ∈ I.outputs c
    · obtain ⟨c, hc, hoc⟩ := ho
      obtain ⟨l1, l2, he⟩ := List.append_of_mem hc
      rw [he, List.flatMap_append, List.flatMap_cons] at hn
      have hd1 : ∀ d ∈ l1, o ∉ I.outputs d := fun d hd hod =>
        (List.nodup_append.1 hn).2.2 o (List.mem_flatMap.2 ⟨d, hd, hod⟩) o (by simp [hoc]) rfl
      have hd2 : ∀ d ∈ l2, o ∉ I.outputs d := fun d hd hod =>
        (List.nodup_append.1 (List.nodup_append.1 hn).2.1).2.2 o hoc o
          (List.mem_flatMap.2 ⟨d, hd, hod⟩) rfl
      have e1 : ∀ d ∈ l1, T.cell d r o = none := fun d hd => hnone d (by simp [he, hd]) (hd1 d hd)
      have e2 : ∀ d ∈ l2, T.cell d r o = none := fun d hd => hnone d (by simp [he, hd]) (hd2 d hd)
      rw [he, List.flatMap_append, List.flatMap_cons,
        flatMap_nil fun d hd => by rw [h d (h1 d (by simp [he, hd])), e1 d hd]; rfl,
        flatMap_nil (l := l2) fun d hd => by rw [h d (h1 d (by simp [he, hd])), e2 d hd]; rfl,
        h c (h1 c hc)]
      unfold ProdTab.cell
      rw [List.findSome?_append, List.findSome?_cons]
      rw [List.findSome?_eq_none_iff.2 e1, List.findSome?_eq_none_iff.2 e2]
      cases T.cell c r o <;> simp
    · push Not at ho
      rw [flatMap_nil fun d hd => by rw [h d (h1 d hd), hnone d hd (ho d hd)]; rfl]
      rw [ProdTab.cell_none_iff.2 fun d hd => hnone d hd (ho d hd)]
      rfl
  | finArray a => exact hc.elim
  | flexArray a => exact hc.elim
  | finMix m =>
    have hr : (finMixTab I M Z T).Reg m := hc
    rw [e5, ← List.singleton_append, hits_append, hits_prim (mixReg_x hr).1, hits_flatMap]
    have hx : m.rowDivide.outputs = [m.indexer] := mixReg_out hr
    have hcomp : ∀ c ∈ m.array.cgpms, hits o r (prims c) = (T.cell c r o).toList := fun c hc =>
      h c (mixReg_fin_mem hr hc).1 o r
    change _ = (if o = m.indexer then Dict.get? m.rowidToComponent r
      else (Dict.get? m.rowidToComponent r).bind fun z =>
        ((finArr (S := S)).get m.array z).bind fun c => T.cell c r o).toList
    by_cases ho : o = m.indexer
    · rw [if_pos ho, if_pos (by rw [hx, ho]; simp), hr.data,
        flatMap_nil fun c hc => by
          rw [hcomp c hc, K.cell_out _ _ _ (mixReg_fin_mem hr hc).1 (by
            rw [(mixReg_fin_mem hr hc).2, ho]; exact hr.x_out)]
          rfl]
      simp
    · rw [if_neg ho, if_neg (by rw [hx]; simpa using ho)]
      simp only [Option.toList_none, List.nil_append]
      have hfresh : ∀ i (hi : i < m.array.cgpms.length),
          Dict.get? m.rowidToComponent r ≠ some (.num (i : ℚ)) →
          hits o r (prims m.array.cgpms[i]) = [] := by
        intro i hi hne
        rw [hcomp _ (List.getElem_mem hi), hr.fresh r (.num (i : ℚ)) _ (by
          simp only [finArr, natIndex_nat, Option.bind_some, List.getElem?_eq_getElem hi]) hne]
        rfl
      rcases hz : Dict.get? m.rowidToComponent r with _ | z
      · rw [flatMap_nil fun c hc => by
          obtain ⟨i, hi, rfl⟩ := List.getElem_of_mem hc
          exact hfresh i hi (by rw [hz]; simp)]
        rfl
      · obtain ⟨-, c, hget, -⟩ := hr.books r z hz
        rw [Option.bind_some, hget, Option.bind_some]
        simp only [finArr] at hget
        rcases hj : natIndex z with _ | j
        · rw [hj] at hget; cases hget
        · rw [hj, Option.bind_some] at hget
          obtain ⟨hlt, rfl⟩ := List.getElem?_eq_some_iff.1 hget
          have hne : ∀ i, i ≠ j → Dict.get? m.rowidToComponent r ≠ some (.num (i : ℚ)) := by
            intro i hij e
            rw [hz, Option.some.injEq] at e
            rw [e, natIndex_nat] at hj
            exact hij (Option.some.inj hj)
          rw [flatMap_single hlt fun i hi hij => hfresh i hi (hne i hij),
            hcomp _ (List.getElem_mem hlt)]
  | flexMix m =>
    have hr : (flexMixTab I M Z T).Reg m := hc
    rw [e6, ← List.singleton_append, hits_append, hits_append, hits_prim (mixReg_x hr).1,
      hits_flatMap]
    have hx : m.rowDivide.outputs = [m.indexer] := mixReg_out hr
    have hcomp : ∀ c ∈ Dict.values m.array.cgpms, hits o r (prims c) = (T.cell c r o).toList :=
      fun c hc => h c (mixReg_mem hr hc).1 o r
    have hbase := h _ (mixReg_base L K hr) o r
    have hb : M.Inv m.array.base := hr.inv.2.1.1.1
    have hbase0 : T.cell m.array.base r = T.cell (M.strip m.array.base) r := by
      rw [K.cell_E _ _ (L.strip _ hb) (mixReg_base L K hr)]
    have hnd : (Dict.keys m.array.cgpms).Nodup := hr.inv.2.1.2.2.1
    have hfreshbase : T.cell m.array.base r o = none := by
      obtain ⟨k, hk⟩ := exists_unused
        (Dict.set m.array.cgpms ((Dict.get? m.rowidToComponent r).getD .nan) m.array.base)
      rw [Dict.get?_set] at hk
      split at hk
      · cases hk
      · next hkz =>
        have := hr.fresh r k _ rfl (fun e => hkz (by rw [e]; rfl)) o
        rw [FlexArray.comp, hk] at this
        rw [hbase0]
        exact this
    rw [hbase, hfreshbase]
    change _ = (if o = m.indexer then Dict.get? m.rowidToComponent r
      else (Dict.get? m.rowidToComponent r).bind fun z =>
        ((flexArr M).get m.array z).bind fun c => T.cell c r o).toList
    simp only [Option.toList_none, List.append_nil]
    by_cases ho : o = m.indexer
    · rw [if_pos ho, if_pos (by rw [hx, ho]; simp), hr.data,
        flatMap_nil fun c hc => by
          rw [hcomp c hc, K.cell_out _ _ _ (mixReg_mem hr hc).1 (by
            rw [(mixReg_mem hr hc).2, ho]; exact hr.x_out)]
          rfl]
      simp
    · rw [if_neg ho, if_neg (by rw [hx]; simpa using ho)]
      simp only [Option.toList_none, List.nil_append]
      have hfresh : ∀ kc ∈ m.array.cgpms, Dict.get? m.rowidToComponent r ≠ some kc.1 →
          hits o r (prims kc.2) = [] := by
        intro kc hkc hne
        have hg := Dict.get?_of_mem hnd (show (kc.1, kc.2) ∈ m.array.cgpms from hkc)
        have := hr.fresh r kc.1 _ rfl hne o
        rw [FlexArray.comp, hg] at this
        rw [hcomp _ (List.mem_map_of_mem hkc)]
        have e : T.cell kc.2 r o = none := this
        rw [e]
        rfl
      rcases hz : Dict.get? m.rowidToComponent r with _ | z
      · rw [flatMap_nil fun c hc => by
          obtain ⟨kc, hkc, rfl⟩ := List.mem_map.1 hc
          exact hfresh kc hkc (by rw [hz]; simp)]
        rfl
      · rw [Option.bind_some]
        change _ = (T.cell (m.array.comp M z) r o).toList
        rcases hc : Dict.get? m.array.cgpms z with _ | c
        · rw [FlexArray.comp, hc]
          rw [flatMap_nil fun c hc' => by
            obtain ⟨kc, hkc, rfl⟩ := List.mem_map.1 hc'
            refine hfresh kc hkc fun e => ?_
            rw [hz, Option.some.injEq] at e
            rw [e, Dict.get?_of_mem hnd (show (kc.1, kc.2) ∈ m.array.cgpms from hkc)] at hc
            cases hc]
          simp only [Option.getD_none]
          rw [← hbase0, hfreshbase]
          rfl
        · rw [FlexArray.comp, hc]
          simp only [Option.getD_some]
          obtain ⟨j, hj, he⟩ := List.getElem_of_mem (Dict.mem_of_get? hc)
          have hj' : j < (Dict.values m.array.cgpms).length := by simpa [Dict.values] using hj
          have hcj : (Dict.values m.array.cgpms)[j] = c := by simp [Dict.values, he]
          rw [flatMap_single hj' fun i hi hij => ?_, hcj,
            hcomp c (by rw [← hcj]; exact List.getElem_mem hj')]
          have hi' : i < m.array.cgpms.length := by simpa [Dict.values] using hi
          have e : (Dict.values m.array.cgpms)[i] = m.array.cgpms[i].2 := by simp [Dict.values]
          rw [e]
          refine hfresh _ (List.getElem_mem hi') fun e => ?_
          rw [hz, Option.some.injEq] at e
          apply hij
          have h1 : (Dict.keys m.array.cgpms)[i]'(by simpa [Dict.keys] using hi') =
              (Dict.keys m.array.cgpms)[j]'(by simpa [Dict.keys] using hj) := by
            simp [Dict.keys, he, e]
          exact (hnd.getElem_inj_iff).1 h1

theorem cgpm_hits (Z : List Var) : (n : Nat) → ∀ c : Cgpm n, (cgpmTab Z n).Reg c →
    ∀ o r, hits o r (primsIn n c) = ((cgpmTab Z n).cell c r o).toList
  | 0, _, h => fun o r => hits_prim h.1.1 o r
  | n + 1, c, h => node_hits (cgpmLaws n) (cgpmTLaws Z n) (fun _ => rfl) (fun _ => rfl)
      (fun _ => rfl) (fun _ => rfl) (cgpm_hits Z n) c h

end Cgpm2

namespace Cgpm2
open Spec

/-- Every primitive inside a regular model is well-formed. -/
theorem cgpm_prims_good (Z : List Var) : (n : Nat) → ∀ c : Cgpm n, (cgpmTab Z n).Reg c →
    ∀ p ∈ primsIn n c, p.Good
  | 0, p, h => fun q hq => by rw [List.mem_singleton.1 hq]; exact h.1
  | n + 1, .prim p, h => fun q hq => by rw [List.mem_singleton.1 hq]; exact h.1
  | n + 1, .product p, h => fun q hq => by
    obtain ⟨c, hc, hq⟩ := List.mem_flatMap.1 hq
    exact cgpm_prims_good Z n c (h.1 c hc) q hq
  | n + 1, .finArray _, h => h.elim
  | n + 1, .flexArray _, h => h.elim
  | n + 1, .finMix m, h => fun q hq => by
    have hr : (finMixTab (cgpmI n) (cgpmSem n) Z (cgpmTab Z n)).Reg m := h
    rcases List.mem_cons.1 hq with rfl | hq
    · exact hr.inv.1
    · obtain ⟨c, hc, hq⟩ := List.mem_flatMap.1 hq
      exact cgpm_prims_good Z n c (mixReg_fin_mem hr hc).1 q hq
  | n + 1, .flexMix m, h => fun q hq => by
    have hr : (flexMixTab (cgpmI n) (cgpmSem n) Z (cgpmTab Z n)).Reg m := h
    rcases List.mem_cons.1 hq with rfl | hq
    · exact hr.inv.1
    · rcases List.mem_append.1 hq with hq | hq
      · obtain ⟨c, hc, hq⟩ := List.mem_flatMap.1 hq
        exact cgpm_prims_good Z n c (mixReg_mem hr hc).1 q hq
      · exact cgpm_prims_good Z n _ (mixReg_base (cgpmLaws n) (cgpmTLaws Z n) hr) q hq

theorem filter_data {V : Type} (f : Val → V) (d : Dict RowId Val) (hn : (Dict.keys d).Nodup)
    (r : RowId) : (d.map fun rv => (rv.1, f rv.2)).filter (fun rv => decide (rv.1 = r)) =
      (Dict.get? d r).toList.map fun x => (r, f x) := by
  induction d with
  | nil => rfl
  | cons kv d ih =>
    obtain ⟨k, v⟩ := kv
    rw [Dict.keys_cons, List.nodup_cons] at hn
    rw [List.map_cons, List.filter_cons, Dict.get?_cons, ih hn.2]
    by_cases h : k = r
    · subst h
      rw [(Dict.get?_eq_none_iff _ _).2 hn.1]
      simp
    · simp [h]

theorem Prim.Inv.nodup_data {p : Prim} (h : p.Inv) : (Dict.keys p.data).Nodup := by
  cases p with
  | crp c =>
    have := Crp.Inv.nodup h
    simpa [Prim.data, Dict.keys, List.map_map, Function.comp_def] using this
  | categorical c => exact Categorical.Inv.nodup h
  | bernoulli c => exact Bernoulli.Inv.nodup h
  | normal c => exact Normal.Inv.nodup h
  | normalUC c => exact NormalUC.Inv.nodup h
  | poisson c => exact Poisson.Inv.nodup h

/-- The data listed for the primitives of a column. -/
theorem dataset_filter {V : Type} (f : Val → V) (o : Var) (r : RowId) (ps : List Prim)
    (h : ∀ p ∈ ps, p.Inv) :
    ((colOf o ps).flatMap fun p => p.data.map fun rv => (rv.1, f rv.2)).filter
      (fun rv => decide (rv.1 = r)) = (hits o r ps).map fun x => (r, f x) := by
  induction ps with
  | nil => rfl
  | cons p ps ih =>
    have ih := ih fun q hq => h q (by simp [hq])
    by_cases hp : p.outputs = [o]
    · have e : colOf o (p :: ps) = p :: colOf o ps := by simp [colOf, hp]
      rw [e, List.flatMap_cons, List.filter_append, ih, filter_data f _ (h p (by simp)).nodup_data]
      simp only [hits, List.filterMap_cons, hp, if_true]
      cases Dict.get? p.data r <;> simp
    · have e : colOf o (p :: ps) = colOf o ps := by simp [colOf, hp]
      rw [e, ih]
      simp [hits, hp]

/-- What is listed for a column of a regular model: the cells of the column. -/
theorem dataset_cells {Z : List Var} {n : Nat} {c : Cgpm n} (h : (cgpmTab Z n).Reg c) (o : Var)
    {V : Type} (f : Val → V) :
    ∃ l : List (RowId × V),
      ((colOf o (primsIn n c)).flatMap fun p => p.data.map fun rv => (rv.1, f rv.2)) = l ∧
      (l.map Prod.fst).Nodup ∧
      ∀ r y, (r, y) ∈ l ↔ ∃ x, (cgpmTab Z n).cell c r o = some x ∧ y = f x := by
  refine ⟨_, rfl, ?_, fun r y => ?_⟩
  · rw [List.nodup_iff_count_le_one]
    intro r
    have hf := dataset_filter f o r (primsIn n c) fun p hp => (cgpm_prims_good Z n c h p hp).1
    rw [cgpm_hits Z n c h] at hf
    rw [List.count_eq_countP, List.countP_map, List.countP_eq_length_filter]
    have e : ((fun x => x == r) ∘ Prod.fst : RowId × V → Bool) = fun rv => decide (rv.1 = r) := by
      funext rv
      simp [beq_eq_decide]
    rw [e, hf]
    cases (cgpmTab Z n).cell c r o <;> simp
  · have hf := dataset_filter f o r (primsIn n c) fun p hp => (cgpm_prims_good Z n c h p hp).1
    rw [cgpm_hits Z n c h] at hf
    have : (r, y) ∈ (((colOf o (primsIn n c)).flatMap fun p =>
        p.data.map fun rv => (rv.1, f rv.2)).filter fun rv => decide (rv.1 = r)) ↔
        ∃ x, (cgpmTab Z n).cell c r o = some x ∧ y = f x := by
      rw [hf]
      cases (cgpmTab Z n).cell c r o <;> simp
    rw [← this, List.mem_filter]
    simp

end Cgpm2
