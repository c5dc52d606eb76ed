import Verif.Lemmas.Export
import Verif.Props.CppCrosscat

/-!
# The latent state handed to the C++ engine (helpers)
-/

namespace Cgpm2.Views
open Spec Cpp CoreDsl Props

/-! ## Counting -/

theorem foldr_max_lt {l : List Nat} {N : Nat} (hN : 0 < N) (h : ∀ a ∈ l, a < N) : l.foldr max 0 < N := by
  induction l with
  | nil => exact hN
  | cons a l ih =>
    rw [List.foldr_cons]
    exact max_lt (h a (by simp)) (ih fun b hb => h b (by simp [hb]))

theorem le_foldr_max {l : List Nat} {a : Nat} (h : a ∈ l) : a ≤ l.foldr max 0 := by
  induction l with
  | nil => cases h
  | cons b l ih =>
    rw [List.foldr_cons]
    rcases List.mem_cons.1 h with rfl | h
    · exact le_max_left _ _
    · exact (ih h).trans (le_max_right _ _)

theorem bincount_eq {l : List Nat} {N : Nat} (h1 : ∀ a ∈ l, a < N) (h2 : ∀ n, N = n + 1 → n ∈ l) :
    bincount l = (List.range N).map fun i => l.count i := by
  rcases N with _ | n
  · rcases l with _ | ⟨a, l⟩
    · rfl
    · exact absurd (h1 a (by simp)) (by omega)
  · have hn := h2 n rfl
    have hm : l.foldr max 0 = n := by
      have := foldr_max_lt (by omega) h1
      have := le_foldr_max hn
      omega
    rcases l with _ | ⟨a, l⟩
    · cases hn
    · unfold bincount
      dsimp only
      rw [hm]

theorem mem_of_noGaps {l : List Nat} (h : NoGaps (l.map Int.ofNat)) {a b : Nat} (ha : a ∈ l) (hb : b < a) : b ∈ l := by
  have := (h a (List.mem_map.2 ⟨a, ha, rfl⟩)).2 b (by omega) (by exact_mod_cast hb)
  obtain ⟨b', hb', e⟩ := List.mem_map.1 this
  have : b' = b := Int.ofNat.inj e
  exact this ▸ hb'

theorem noGaps_range {l : List Nat} (h : NoGaps (l.map Int.ofNat)) (a : Nat) : a ∈ l ↔ a < l.dedup.length := by
  have key : ∃ N, ∀ a, a ∈ l ↔ a < N := by
    rcases l with _ | ⟨b, l⟩
    · exact ⟨0, by simp⟩
    · refine ⟨(b :: l).foldr max 0 + 1, fun a => ⟨fun ha => Nat.lt_succ_of_le (le_foldr_max ha), fun ha => ?_⟩⟩
      have hm : (b :: l).foldr max 0 ∈ b :: l := by
        clear h ha
        induction l generalizing b with
        | nil => simp
        | cons c l ih =>
          have := ih c
          rw [List.foldr_cons]
          rcases max_choice b ((c :: l).foldr max 0) with e | e
          · rw [e]; simp
          · rw [e]; exact List.mem_cons_of_mem _ this
      rcases Nat.lt_succ_iff_lt_or_eq.1 ha with hlt | rfl
      · exact mem_of_noGaps h hm hlt
      · exact hm
  obtain ⟨N, hN⟩ := key
  have hp : l.dedup.Perm (List.range N) := (List.perm_ext_iff_of_nodup (List.nodup_dedup l) List.nodup_range).2
    fun a => by rw [List.mem_dedup, List.mem_range]; exact hN a
  rw [hN, hp.length_eq, List.length_range]

theorem bincount_noGaps {l : List Nat} (h : NoGaps (l.map Int.ofNat)) :
    bincount l = (List.range l.dedup.length).map fun i => l.count i :=
  bincount_eq (fun a ha => (noGaps_range h a).1 ha) fun n hn => (noGaps_range h n).2 (by omega)

theorem zero_not_mem_bincount {l : List Nat} (h : NoGaps (l.map Int.ofNat)) : 0 ∉ bincount l := by
  rw [bincount_noGaps h]
  intro h0
  obtain ⟨i, hi, h0⟩ := List.mem_map.1 h0
  rw [List.mem_range] at hi
  exact List.count_eq_zero.1 h0 ((noGaps_range h i).2 hi)

/-! ## The views of the columns -/

theorem index_unique {S T : Type} {f : S → List T} {l : List S} (hn : (l.flatMap f).Nodup) {i j : Nat} {a b : S}
    {o : T} (hi : l[i]? = some a) (hj : l[j]? = some b) (ha : o ∈ f a) (hb : o ∈ f b) : i = j := by
  have hp := (List.nodup_flatMap.1 hn).2
  rw [List.pairwise_iff_getElem] at hp
  obtain ⟨hi', rfl⟩ := List.getElem?_eq_some_iff.1 hi
  obtain ⟨hj', rfl⟩ := List.getElem?_eq_some_iff.1 hj
  rcases Nat.lt_trichotomy i j with h | h | h
  · exact absurd hb (hp i j hi' hj' h ha)
  · exact h
  · exact absurd ha (hp j i hj' hi' h hb)

theorem viewIndex_eq {Z : List Var} {x : Crosscat} (h : CC Z x) {o : Var} (ho : o ∈ columns x) :
    ∃ k, viewIndex x [o] = .ok k ∧ ∃ v, x.cgpms[k]? = some v ∧ o ∈ viewColumns v := by
  obtain ⟨v, hv, hov⟩ := mem_columns.1 ho
  obtain ⟨k, hk⟩ := List.mem_iff_getElem?.1 hv
  refine ⟨k, ?_, v, hk, hov⟩
  have hall : ∀ w ∈ ([o].flatMap fun output =>
      (x.cgpms.zipIdx.filter fun vi => decide (output ∈ (cgpmI 2).outputs vi.1)).map Prod.snd), w = k := by
    intro w hw
    rw [List.flatMap_singleton] at hw
    obtain ⟨⟨u, i⟩, hm, rfl⟩ := List.mem_map.1 hw
    obtain ⟨hm, hou⟩ := List.mem_filter.1 hm
    have hi := List.mem_zipIdx_iff_getElem?.1 hm
    exact index_unique h.nodup hi hk (by simpa using hou) (columns_sub hov)
  have hk' : k ∈ ([o].flatMap fun output =>
      (x.cgpms.zipIdx.filter fun vi => decide (output ∈ (cgpmI 2).outputs vi.1)).map Prod.snd) := by
    rw [List.flatMap_singleton]
    exact List.mem_map.2 ⟨(v, k), List.mem_filter.2 ⟨List.mem_zipIdx_iff_getElem?.2 hk, by
      simpa using columns_sub hov⟩, rfl⟩
  unfold viewIndex
  dsimp only
  generalize ([o].flatMap fun output =>
      (x.cgpms.zipIdx.filter fun vi => decide (output ∈ (cgpmI 2).outputs vi.1)).map Prod.snd) = l at hall hk'
  rcases l with _ | ⟨a, l⟩
  · cases hk'
  · dsimp only
    rw [if_neg, hall a (by simp)]
    rw [not_not]
    intro w hw
    rw [hall w (by simp [hw]), hall a (by simp)]

theorem count_index {S T : Type} (f : S → List T) (A : T → Nat) (l : List S) (n : Nat)
    (hA : ∀ (i : Nat) v, l[i]? = some v → ∀ o ∈ f v, A o = n + i) (k : Nat) :
    ((l.flatMap f).map A).count (n + k) = ((l[k]?).map fun v => (f v).length).getD 0 := by
  induction l generalizing n k with
  | nil => simp
  | cons a l ih =>
    rw [List.flatMap_cons, List.map_append, List.count_append]
    have h0 : (f a).map A = List.replicate (f a).length n := by
      rw [List.eq_replicate_iff]
      refine ⟨by simp, fun b hb => ?_⟩
      obtain ⟨o, ho, rfl⟩ := List.mem_map.1 hb
      exact hA 0 a rfl o ho
    have hA' : ∀ (i : Nat) v, l[i]? = some v → ∀ o ∈ f v, A o = n + 1 + i := by
      intro i v hv o ho
      rw [hA (i + 1) v (by simpa using hv) o ho]; omega
    rw [h0]
    rcases k with _ | k
    · have : ((l.flatMap f).map A).count n = 0 := by
        rw [List.count_eq_zero]
        intro hm
        obtain ⟨o, ho, e⟩ := List.mem_map.1 hm
        obtain ⟨v, hv, ho⟩ := List.mem_flatMap.1 ho
        obtain ⟨i, hi⟩ := List.mem_iff_getElem?.1 hv
        have := hA' i v hi o ho
        omega
      simp [this]
    · have := ih (n + 1) hA' k
      rw [show n + (k + 1) = n + 1 + k by omega, this, List.getElem?_cons_succ,
        List.count_replicate, if_neg (by simp; omega), Nat.zero_add]

/-! ## Positions -/

theorem position_eq {T : Type} [DecidableEq T] {l : List T} (hn : l.Nodup) {i : Nat} {c : T}
    (h : l[i]? = some c) : position l c = .ok i := by
  unfold position
  rw [if_pos (List.mem_of_getElem? h)]
  obtain ⟨hi, rfl⟩ := List.getElem?_eq_some_iff.1 h
  rw [hn.idxOf_getElem]

theorem position_ok {T : Type} [DecidableEq T] {l : List T} {c : T} (h : c ∈ l) :
    ∃ i, position l c = .ok i ∧ l[i]? = some c := by
  unfold position
  rw [if_pos h]
  exact ⟨_, rfl, by rw [List.getElem?_eq_getElem (List.idxOf_lt_length_iff.2 h), List.getElem_idxOf]⟩

theorem positions_ok {T : Type} [DecidableEq T] {l : List T} {cs : List T} (h : ∀ c ∈ cs, c ∈ l) :
    ∃ ps, cs.mapM (position l) = .ok ps ∧ List.Forall₂ (fun c i => l[i]? = some c) cs ps := by
  induction cs with
  | nil => exact ⟨[], rfl, .nil⟩
  | cons c cs ih =>
    obtain ⟨i, h1, h2⟩ := position_ok (h c (by simp))
    obtain ⟨ps, h3, h4⟩ := ih fun d hd => h d (by simp [hd])
    refine ⟨i :: ps, ?_, .cons h2 h4⟩
    rw [List.mapM_cons, h1, h3]
    rfl

/-- The dict of `col_ensure`. -/
theorem ensure_ok {outputs : List Var} {pairs : List (Var × List Var)} (hn : outputs.Nodup)
    (hp : ∀ cb ∈ pairs, cb.1 ∈ outputs ∧ ∀ c ∈ cb.2, c ∈ outputs) :
    ∃ d, ensure outputs pairs = .ok d ∧ ((pairs.map Prod.fst).Nodup →
      ∀ cb ∈ pairs, ∀ i : Nat, outputs[i]? = some cb.1 → ∃ ps, Dict.get? d (decimal i) = some ps ∧
        List.Forall₂ (fun c j => outputs[j]? = some c) cb.2 ps) := by
  have hall : ∀ cb : Var × List Var, ∃ (i : Nat) (ps : List Nat), cb ∈ pairs →
      position outputs cb.1 = .ok i ∧ outputs[i]? = some cb.1 ∧ cb.2.mapM (position outputs) = .ok ps ∧
      List.Forall₂ (fun c j => outputs[j]? = some c) cb.2 ps := by
    intro cb
    by_cases hcb : cb ∈ pairs
    · obtain ⟨i, h1, h2⟩ := position_ok (hp cb hcb).1
      obtain ⟨ps, h3, h4⟩ := positions_ok (hp cb hcb).2
      exact ⟨i, ps, fun _ => ⟨h1, h2, h3, h4⟩⟩
    · exact ⟨0, [], fun h => absurd h hcb⟩
  choose I P hIP using hall
  have hm : pairs.mapM (fun cb => do
      let i ← position outputs cb.1
      let block ← cb.2.mapM (position outputs)
      pure (decimal (i : Nat), block) : Var × List Var → Except Err (Str × List Nat)) =
        .ok (pairs.map fun cb => (decimal (I cb : Nat), P cb)) := by
    apply mapM_ok_map
    intro cb hcb
    obtain ⟨h1, -, h3, -⟩ := hIP cb hcb
    rw [h1, h3]
    rfl
  refine ⟨(pairs.map fun cb => (decimal (I cb : Nat), P cb)).foldl (fun d kv => Dict.set d kv.1 kv.2) [], ?_, ?_⟩
  · unfold ensure
    rw [hm]
    rfl
  · intro hk cb hcb i hi
    have hinj : ((pairs.map fun cb => (decimal (I cb : Nat), P cb)).map Prod.fst).Nodup := by
      rw [List.map_map]
      refine List.Nodup.map_on ?_ (List.Nodup.of_map _ hk)
      intro a ha b hb e
      have e : I a = I b := by have := decimal_inj (a := I a) (b := I b) e; exact_mod_cast this
      have e' : a.1 = b.1 := by
        have h1 := (hIP a ha).2.1
        rw [e, (hIP b hb).2.1] at h1
        exact (Option.some.inj h1).symm
      exact List.inj_on_of_nodup_map hk ha hb e'
    rw [foldl_set_nodup hinj]
    obtain ⟨h1, h2, h3, h4⟩ := hIP cb hcb
    have : i = I cb := by
      have h5 := position_eq hn hi
      rw [h1] at h5
      exact (Except.ok.inj h5).symm
    subst this
    exact ⟨P cb, Dict.get?_of_mem hinj (List.mem_map.2 ⟨cb, hcb, rfl⟩), h4⟩

/-! ## The metadata of a column -/

section
variable {Z : List Var} {x : Crosscat}

theorem column_meta (h : CC Z x) {ordered : List Val → List Val} (hord : ListsSet ordered) {o : Var}
    (ho : o ∈ columns x) {b : Prim}
    (hb : ∀ q ∈ primsIn 3 (whole x), q.outputs = [o] → q.kind = b.kind ∧ q.card = b.card)
    (hk : b.kind = .normal ∨ b.kind = .categorical) {D : Dict RowId Val} (hn : (Dict.keys D).Nodup)
    (hD : ∀ r, Dict.get? D r = (cgpmTab Z 3).cell (whole x) r o) :
    ∃ m, createMetadata (ordered (Dict.values D)) (cctype b.kind) b.card = .ok m ∧
      (m.modeltype = .normal ↔ b.kind = .normal) ∧ (m.modeltype = .categorical ↔ b.kind = .categorical) ∧
      (b.kind = .categorical → m.codeToValue.length = (numbers (ordered (Dict.values D))).length) ∧
      ∀ r v, Dict.get? D r = some v → ∃ c, valueToCode m v = .ok c ∧ Decodes m c v := by
  rcases hk with hk | hk
  · rw [hk]
    refine ⟨⟨.normal, [], []⟩, rfl, by simp, by simp, (fun h => nomatch h), fun r v _ => ⟨v, by cases v <;> rfl, ?_⟩⟩
    rcases v with _ | q
    · rfl
    · exact .inl ⟨rfl, rfl⟩
  · rw [hk]
    have hvalid : ∀ q, Val.num q ∈ Dict.values D → ∃ j : Int, q = j ∧ 0 ≤ j ∧ j < b.card := by
      intro q hq
      obtain ⟨⟨r, v⟩, hrv, rfl⟩ := List.mem_map.1 hq
      refine categorical_legal (r := r) h ho hb hk ?_
      rw [← hD]
      exact Dict.get?_of_mem hn hrv
    obtain ⟨m, e1, e2, e3, -⟩ := C49_categorical _ _ _ hvalid (hord (Dict.values D))
    have hint : ∀ q ∈ numbers (ordered (Dict.values D)), ∃ j : Int, q = j := by
      intro q hq
      unfold numbers at hq
      obtain ⟨v, hv, e⟩ := List.mem_filterMap.1 hq
      cases v with
      | nan => cases e
      | num q' =>
        cases e
        obtain ⟨j, e, -⟩ := hvalid q (((hord _).1 _).1 hv)
        exact ⟨j, e⟩
    have hmt : m.modeltype = .categorical ∧ m.codeToValue.length = (numbers (ordered (Dict.values D))).length := by
      change (if _ then _ else _) = _ at e1
      split at e1
      · cases e1
      · cases e1
        refine ⟨rfl, ?_⟩
        dsimp only
        rw [dictZip_eq]
        · simp
        · refine List.Nodup.map_on ?_ (hord _).2
          intro a ha b hb e
          obtain ⟨j, rfl⟩ := hint a ha
          obtain ⟨k, rfl⟩ := hint b hb
          have := decimal_inj e
          simp only [truncate_intCast] at this
          rw [this]
    refine ⟨m, e1, by simp [hmt.1], by simp [hmt.1], fun _ => hmt.2, fun r v hv => ?_⟩
    rcases v with _ | q
    · exact ⟨.nan, e2, rfl⟩
    · have hq : Val.num q ∈ Dict.values D := List.mem_map.2 ⟨_, Dict.mem_of_get? hv, rfl⟩
      obtain ⟨j, rfl, -, -⟩ := hvalid q hq
      obtain ⟨i, -, e4, e5⟩ := e3 j hq
      exact ⟨_, e4, .inr ⟨hmt.1, i, j, rfl, rfl, e5⟩⟩

/-! ## The states of the views -/

theorem createViewState_eq (h : CC Z x) {v : View} (hv : v ∈ x.cgpms) {part : List Nat}
    (hp : NoGaps (part.map Int.ofNat)) :
    ∃ crp alpha, Node.rowDivide (v : Node (Cgpm 1)) = some crp ∧ Dict.get? crp.getHypers "alpha" = some alpha ∧
      createViewState v part = .ok ⟨(viewColumns v).map fun _ => List.replicate part.dedup.length (),
        (viewColumns v).map columnName, (List.range part.dedup.length).map fun i => part.count i, alpha⟩ := by
  obtain ⟨m, p, hf⟩ := flat_of_reg (h.viewReg hv) (h.views v hv)
  have hkind := hf.kind
  have hrow : Node.rowDivide (v : Node (Cgpm 1)) = some m.rowDivide := by rw [hf.eq]; rfl
  rcases hd : m.rowDivide with c | c | c | c | c | c
  rotate_left
  all_goals try (rw [hd] at hkind; cases hkind)
  rw [hd] at hrow
  refine ⟨_, c.alpha, hrow, rfl, ?_⟩
  unfold createViewState
  dsimp only
  rw [hrow]
  change (if 0 ∈ bincount part then _ else _) = _
  rw [if_neg (zero_not_mem_bincount hp), bincount_noGaps hp]
  rfl

/-! ## The hyperparameters of the columns -/

/-- What the entry of `column_hypers` says about the column. -/
def HypersOf (b : Prim) (K : Nat) : ColHypers → Prop
  | .normal mu nu r s => b.kind = .normal ∧ Dict.get? b.getHypers "m" = some mu ∧
      Dict.get? b.getHypers "nu" = some nu ∧ Dict.get? b.getHypers "r" = some r ∧
      Dict.get? b.getHypers "s" = some s
  | .categorical alpha K' => b.kind = .categorical ∧ Dict.get? b.getHypers "alpha" = some alpha ∧ K' = K

theorem createHypers_eq {mc : Mc} {i : Nat} {m : ColMeta} (hm : mc.columnMetadata[i]? = some m) {b : Prim}
    (hk : b.kind = .normal ∨ b.kind = .categorical) (hK : b.kind = .categorical → m.codeToValue.length ≠ 0) :
    ∃ hy, createHypers mc i b = .ok hy ∧ HypersOf b m.codeToValue.length hy := by
  cases b with
  | normal c => exact ⟨.normal c.m c.nu c.r c.s, rfl, rfl, rfl, rfl, rfl, rfl⟩
  | categorical c =>
    refine ⟨.categorical c.alpha m.codeToValue.length, ?_, rfl, rfl, rfl⟩
    unfold createHypers
    rw [hm]
    change (if m.codeToValue.length = 0 then _ else _) = _
    rw [if_neg (hK rfl)]
    rfl
  | _ => rcases hk with hk | hk <;> cases hk

/-! ## The whole state -/

theorem getXL_eq (h : CC Z x) {mc : Mc} {xd : List (List Nat)} {con : Constraints} {B : Var → Prim}
    {M : Var → ColMeta} (hB : ∀ o ∈ columns x, cgpmBase (n := 3) (whole x) o = .ok (B o))
    (hk : ∀ o ∈ columns x, (B o).kind = .normal ∨ (B o).kind = .categorical)
    (hmc : mc.columnMetadata = (columns x).map M)
    (hK : ∀ o ∈ columns x, (B o).kind = .categorical → (M o).codeToValue.length ≠ 0)
    (hg : ∀ part ∈ xd, NoGaps (part.map Int.ofNat))
    (hd : ∀ block ∈ con.dependent, ∀ c ∈ block, c ∈ columns x)
    (hi : ∀ cb ∈ con.scc, cb.1 ∈ columns x ∧ ∀ c ∈ cb.2, c ∈ columns x) :
    ∃ xl, getXL x mc xd con = .ok xl ∧
      (∃ H : Var → ColHypers, xl.columnHypers = (columns x).map H ∧
        ∀ o ∈ columns x, HypersOf (B o) (M o).codeToValue.length (H o)) ∧
      (∃ A : Var → Nat, xl.assignments = (columns x).map A ∧ ∀ o ∈ columns x, ∃ v, x.cgpms[A o]? = some v ∧ o ∈ viewColumns v) ∧
      xl.counts = x.cgpms.map (fun v => (viewColumns v).length) ∧
      List.Forall₂ (fun (vp : View × List Nat) st => createViewState vp.1 vp.2 = .ok st) (x.cgpms.zip xd) xl.viewStates ∧
      (con.dependent = [] → xl.dependent = none) ∧ (con.independent = [] → xl.independent = none) ∧
      (con.dependent ≠ [] → ∃ d, xl.dependent = some d ∧
        ensure (columns x) (con.dependent.flatMap fun block => block.map fun c => (c, block)) = .ok d) ∧
      (con.independent ≠ [] → ∃ d, xl.independent = some d ∧ ensure (columns x) con.scc = .ok d) := by
  have hcn := cc_columns_nodup h
  -- hyperparameters
  have hH : ∀ o, ∃ hy, o ∈ columns x → ∀ i : Nat, (columns x)[i]? = some o →
      createHypers mc i (B o) = .ok hy ∧ HypersOf (B o) (M o).codeToValue.length hy := by
    intro o
    by_cases ho : o ∈ columns x
    · obtain ⟨i, hi⟩ := List.mem_iff_getElem?.1 ho
      obtain ⟨hy, h1, h2⟩ := createHypers_eq (mc := mc) (i := i) (m := M o) (by
        rw [hmc, List.getElem?_map, hi]; rfl) (hk o ho) (hK o ho)
      refine ⟨hy, fun _ j hj => ?_⟩
      have : i = j := by
        have h1 := position_eq hcn hi
        rw [position_eq hcn hj] at h1
        exact (Except.ok.inj h1).symm
      subst this
      exact ⟨h1, h2⟩
    · exact ⟨.normal 0 0 0 0, fun h => absurd h ho⟩
  choose H hH using hH
  have e1 : ((columns x).map B).zipIdx.mapM (fun pi => createHypers mc pi.2 pi.1) = .ok ((columns x).map H) := by
    have hz : ((columns x).map B).zipIdx = (columns x).zipIdx.map fun oi => (B oi.1, oi.2) := by
      rw [List.zipIdx_map]; rfl
    rw [hz, List.mapM_map]
    rw [mapM_ok_map _ (fun oi => H oi.1)]
    · congr 1
      have h2 := congrArg (List.map H) (List.zipIdx_map_fst 0 (columns x))
      rw [← h2, List.map_map]
      rfl
    · rintro ⟨o, i⟩ hoi
      have hi := List.mem_zipIdx_iff_getElem?.1 hoi
      exact (hH o (List.mem_of_getElem? hi) i hi).1
  -- views
  have hA := fun o (ho : o ∈ columns x) => viewIndex_eq h ho
  choose! A hA1 hA2 using hA
  have e2 : (columns x).mapM (fun output => viewIndex x [output]) = .ok ((columns x).map A) :=
    mapM_ok_map _ A _ hA1
  have hcount : bincount ((columns x).map A) = x.cgpms.map fun v => (viewColumns v).length := by
    have hidx : ∀ (i : Nat) v, x.cgpms[i]? = some v → ∀ o ∈ viewColumns v, A o = 0 + i := by
      intro i v hv o ho
      have hoc : o ∈ columns x := mem_columns.2 ⟨v, List.mem_of_getElem? hv, ho⟩
      obtain ⟨w, hw, how⟩ := hA2 o hoc
      rw [index_unique h.nodup hw hv (columns_sub how) (columns_sub ho), Nat.zero_add]
    rw [bincount_eq (N := x.cgpms.length)]
    · refine List.ext_getElem? fun k => ?_
      rw [List.getElem?_map, List.getElem?_map]
      by_cases hk : k < x.cgpms.length
      · rw [List.getElem?_range hk]
        have := count_index viewColumns A x.cgpms 0 hidx k
        rw [Nat.zero_add] at this
        change some (List.count k (List.map A (x.cgpms.flatMap viewColumns))) = _
        rw [this, List.getElem?_eq_getElem hk]
        rfl
      · rw [List.getElem?_eq_none (by simpa using hk), List.getElem?_eq_none (by simpa using hk)]
        rfl
    · intro a ha
      obtain ⟨o, ho, rfl⟩ := List.mem_map.1 ha
      obtain ⟨v, hv, -⟩ := hA2 o ho
      exact (List.getElem?_eq_some_iff.1 hv).1
    · intro n hn
      have hlt : n < x.cgpms.length := by omega
      have hv := List.getElem?_eq_getElem hlt
      obtain ⟨o, ho⟩ := List.exists_mem_of_ne_nil _ (h.nonempty (List.getElem_mem hlt))
      refine List.mem_map.2 ⟨o, mem_columns.2 ⟨_, List.getElem_mem hlt, ho⟩, ?_⟩
      rw [hidx n _ hv o ho, Nat.zero_add]
  have h0 : 0 ∉ bincount ((columns x).map A) := by
    rw [hcount]
    intro h0
    obtain ⟨v, hv, e⟩ := List.mem_map.1 h0
    exact h.nonempty hv (List.length_eq_zero_iff.1 e)
  -- states of the views
  have hst : ∃ sts, (x.cgpms.zip xd).mapM (fun vr => createViewState vr.1 vr.2) = .ok sts ∧
      List.Forall₂ (fun (vp : View × List Nat) st => createViewState vp.1 vp.2 = .ok st) (x.cgpms.zip xd) sts := by
    have hall : ∀ vp ∈ x.cgpms.zip xd, ∃ st, createViewState vp.1 vp.2 = .ok st := by
      intro vp hvp
      obtain ⟨c, a, -, -, e⟩ := createViewState_eq h (List.of_mem_zip hvp).1 (hg _ (List.of_mem_zip hvp).2)
      exact ⟨_, e⟩
    generalize x.cgpms.zip xd = l at hall
    induction l with
    | nil => exact ⟨[], rfl, .nil⟩
    | cons a l ih =>
      obtain ⟨st, h1⟩ := hall a (by simp)
      obtain ⟨sts, h2, h3⟩ := ih fun b hb => hall b (by simp [hb])
      refine ⟨st :: sts, ?_, .cons h1 h3⟩
      rw [List.mapM_cons, h1, h2]
      rfl
  obtain ⟨sts, e3, hsts⟩ := hst
  obtain ⟨dep, e4, -⟩ := ensure_ok (outputs := columns x)
    (pairs := con.dependent.flatMap fun block => block.map fun c => (c, block)) hcn (by
      intro cb hcb
      obtain ⟨block, hb, hcb⟩ := List.mem_flatMap.1 hcb
      obtain ⟨c, hc, rfl⟩ := List.mem_map.1 hcb
      exact ⟨hd block hb c hc, hd block hb⟩)
  obtain ⟨ind, e5, -⟩ := ensure_ok (outputs := columns x) (pairs := con.scc) hcn hi
  refine ⟨⟨(columns x).map H, (columns x).map A, x.cgpms.map (fun v => (viewColumns v).length), sts,
    if con.dependent = [] then none else some dep, if con.independent = [] then none else some ind⟩, ?_,
    ⟨H, rfl, fun o ho => by
      obtain ⟨i, hi⟩ := List.mem_iff_getElem?.1 ho
      exact (hH o ho i hi).2⟩, ⟨A, rfl, hA2⟩, rfl, hsts, fun e => if_pos e, fun e => if_pos e,
    fun e => ⟨dep, if_neg e, e4⟩, fun e => ⟨ind, if_neg e, e5⟩⟩
  unfold getXL
  rw [distributionOutputs_eq]
  dsimp only
  rw [columnBases_eq h hB]
  change (((columns x).map B).zipIdx.mapM (fun pi => createHypers mc pi.2 pi.1) >>= _) = _
  rw [e1]
  change ((columns x).mapM (fun output => viewIndex x [output]) >>= _) = _
  rw [e2]
  change (if 0 ∈ bincount ((columns x).map A) then _ else _) = _
  rw [if_neg h0, hcount]
  rw [e3]
  by_cases c1 : con.dependent = [] <;> by_cases c2 : con.independent = []
  · rw [if_pos c1, if_pos c2, if_pos c1, if_pos c2]; rfl
  · rw [if_pos c1, if_neg c2, if_pos c1, if_neg c2, e5]; rfl
  · rw [if_neg c1, if_pos c2, if_neg c1, if_pos c2, e4]; rfl
  · rw [if_neg c1, if_neg c2, if_neg c1, if_neg c2, e4, e5]; rfl

theorem except_bind {α β : Type} {m : Except Err α} {f : α → Except Err β} {b : β} (h : (m >>= f) = .ok b) :
    ∃ a, m = .ok a ∧ f a = .ok b := by
  cases m with
  | error e => cases h
  | ok a => exact ⟨a, rfl, h⟩

theorem getXL_assignments (h : CC Z x) {mc : Mc} {xd : List (List Nat)} {con : Constraints} {xl : XL}
    (he : getXL x mc xd con = .ok xl) : xl.assignments.length = (columns x).length ∧
    ∀ (i : Nat) o k, (columns x)[i]? = some o → xl.assignments[i]? = some k →
      ∃ v, x.cgpms[k]? = some v ∧ o ∈ viewColumns v := by
  unfold getXL at he
  rw [distributionOutputs_eq] at he
  dsimp only at he
  obtain ⟨bases, -, he⟩ := except_bind he
  obtain ⟨hy, -, he⟩ := except_bind he
  obtain ⟨as, ha, he⟩ := except_bind he
  have hx : xl.assignments = as := by
    by_cases h0 : 0 ∈ bincount as
    · rw [if_pos h0] at he; cases he
    · rw [if_neg h0] at he
      obtain ⟨_, -, he⟩ := except_bind he
      obtain ⟨_, -, he⟩ := except_bind he
      obtain ⟨_, -, he⟩ := except_bind he
      cases he
      rfl
  rw [hx]
  have hA := fun o (ho : o ∈ columns x) => viewIndex_eq h ho
  choose! A hA1 hA2 using hA
  rw [mapM_ok_map _ A _ hA1] at ha
  cases ha
  refine ⟨by simp, fun i o k ho hk => ?_⟩
  rw [List.getElem?_map, ho] at hk
  cases hk
  exact hA2 o (List.mem_of_getElem? ho)

end

end Cgpm2.Views
