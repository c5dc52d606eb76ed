import Verif.Lemmas.RowStep
import Verif.Lemmas.PrimExch
import Verif.Lemmas.Ordered
import Verif.Spec.Posterior

/-!
# What the score of a view depends on (helpers)
-/

namespace Cgpm2
open Spec

/-! ## Labels -/

/-- The two labellings have the same rows and put the same rows together. -/
def Relabels {R α β : Type} (l : R → Option α) (l' : R → Option β) : Prop :=
  ∀ r r', (∃ k, l r = some k ∧ l r' = some k) ↔ ∃ k, l' r = some k ∧ l' r' = some k

theorem Relabels.symm {R α β : Type} {l : R → Option α} {l' : R → Option β} (h : Relabels l l') :
    Relabels l' l := fun r r' => (h r r').symm

theorem Relabels.held {R α β : Type} {l : R → Option α} {l' : R → Option β} (h : Relabels l l') {r : R} {k : α}
    (hk : l r = some k) : ∃ k', l' r = some k' := by
  obtain ⟨k', h1, -⟩ := (h r r).1 ⟨k, hk, hk⟩
  exact ⟨k', h1⟩

theorem Relabels.class {R α β : Type} {l : R → Option α} {l' : R → Option β} (h : Relabels l l') {r : R} {k : α}
    {k' : β} (hk : l r = some k) (hk' : l' r = some k') (r' : R) : l r' = some k ↔ l' r' = some k' := by
  constructor
  · intro h1
    obtain ⟨j, h2, h3⟩ := (h r r').1 ⟨k, hk, h1⟩
    rw [hk'] at h2
    cases h2
    exact h3
  · intro h1
    obtain ⟨j, h2, h3⟩ := (h r r').2 ⟨k', hk', h1⟩
    rw [hk] at h2
    cases h2
    exact h3

/-- A sum over the labels in use. -/
theorem sum_relabel {R α β M : Type} [AddCommMonoid M] {l : R → Option α} {l' : R → Option β} (h : Relabels l l')
    {L : Finset α} {L' : Finset β} (hL : ∀ k, k ∈ L ↔ ∃ r, l r = some k) (hL' : ∀ k, k ∈ L' ↔ ∃ r, l' r = some k)
    {F : α → M} {F' : β → M} (hF : ∀ r k k', l r = some k → l' r = some k' → F k = F' k') :
    ∑ k ∈ L, F k = ∑ k ∈ L', F' k := by
  have hr : ∀ k : L, ∃ r k', l r = some k.1 ∧ l' r = some k' := fun k => by
    obtain ⟨r, hr⟩ := (hL k).1 k.2
    obtain ⟨k', hk'⟩ := h.held hr
    exact ⟨r, k', hr, hk'⟩
  choose r i hr hi using hr
  refine Finset.sum_bij (fun k hk => i ⟨k, hk⟩) (fun k hk => (hL' _).2 ⟨_, hi ⟨k, hk⟩⟩) (fun a ha b hb hab => ?_)
    (fun b hb => ?_) fun a ha => hF _ _ _ (hr ⟨a, ha⟩) (hi ⟨a, ha⟩)
  · have h1 := (h.class (hr ⟨a, ha⟩) (hi ⟨a, ha⟩) (r ⟨b, hb⟩)).2 (hab ▸ hi ⟨b, hb⟩)
    rw [hr ⟨b, hb⟩] at h1
    exact (Option.some.inj h1).symm
  · obtain ⟨s, hs⟩ := (hL' b).1 hb
    obtain ⟨a, ha⟩ := h.symm.held hs
    have haL := (hL a).2 ⟨s, ha⟩
    refine ⟨a, haL, ?_⟩
    have h1 := (h.class (hr ⟨a, haL⟩) (hi ⟨a, haL⟩) s).1 ha
    rw [hs] at h1
    exact (Option.some.inj h1).symm

theorem count_values {K V : Type} [DecidableEq K] [DecidableEq V] {d : Dict K V} (t : V) :
    (Dict.values d).count t = (d.filter fun kv => decide (kv.2 = t)).length := by
  unfold Dict.values
  rw [List.count, List.countP_map, List.countP_eq_length_filter]
  rfl

theorem get?_filter {K V : Type} [DecidableEq K] [DecidableEq V] {d : Dict K V} (hd : (Dict.keys d).Nodup) (t : V)
    (k : K) : Dict.get? (d.filter fun kv => decide (kv.2 = t)) k = if Dict.get? d k = some t then some t else none := by
  have hd' : (Dict.keys (d.filter fun kv => decide (kv.2 = t))).Nodup := hd.sublist (List.filter_sublist.map _)
  split
  · next h => exact Dict.get?_of_mem hd' (List.mem_filter.2 ⟨Dict.mem_of_get? h, by simp⟩)
  · next h =>
    rw [Dict.get?_eq_none_iff]
    intro hk
    obtain ⟨v, hv⟩ := Dict.mem_keys_iff.1 hk
    obtain ⟨h1, h2⟩ := List.mem_filter.1 hv
    have h2 : v = t := by simpa using h2
    exact h (h2 ▸ Dict.get?_of_mem hd h1)

/-- Two dicts that put the same keys together have the same numbers. -/
theorem count_relabel {K V W : Type} [DecidableEq K] [DecidableEq V] [DecidableEq W] {d : Dict K V} {d' : Dict K W}
    (hd : (Dict.keys d).Nodup) (hd' : (Dict.keys d').Nodup) {t : V} {t' : W}
    (h : ∀ k, Dict.get? d k = some t ↔ Dict.get? d' k = some t') :
    (Dict.values d).count t = (Dict.values d').count t' := by
  rw [count_values, count_values]
  have e1 : (Dict.keys (d.filter fun kv => decide (kv.2 = t))).Nodup := hd.sublist (List.filter_sublist.map _)
  have e2 : (Dict.keys (d'.filter fun kv => decide (kv.2 = t'))).Nodup := hd'.sublist (List.filter_sublist.map _)
  have hp : (Dict.keys (d.filter fun kv => decide (kv.2 = t))).Perm
      (Dict.keys (d'.filter fun kv => decide (kv.2 = t'))) := by
    rw [List.perm_ext_iff_of_nodup e1 e2]
    intro k
    rw [← not_iff_not, ← Dict.get?_eq_none_iff, ← Dict.get?_eq_none_iff, get?_filter hd, get?_filter hd']
    by_cases h1 : Dict.get? d k = some t
    · rw [if_pos h1, if_pos ((h k).1 h1)]
      simp
    · rw [if_neg h1, if_neg fun h2 => h1 ((h k).2 h2)]
      simp
  have := hp.length_eq
  simpa [Dict.keys] using this

theorem length_relabel {K V W : Type} [DecidableEq K] {d : Dict K V} {d' : Dict K W}
    (hd : (Dict.keys d).Nodup) (hd' : (Dict.keys d').Nodup)
    (h : ∀ k, Dict.get? d k = none ↔ Dict.get? d' k = none) : d.length = d'.length := by
  have hp : (Dict.keys d).Perm (Dict.keys d') := by
    rw [List.perm_ext_iff_of_nodup hd hd']
    intro k
    rw [← not_iff_not, ← Dict.get?_eq_none_iff, ← Dict.get?_eq_none_iff, h k]
  simpa [Dict.keys] using hp.length_eq

/-- The score of a CRP does not depend on labels. -/
theorem Crp.score_relabel {a b : Crp} (ha : a.Inv) (hb : b.Inv) (halpha : a.alpha = b.alpha)
    (h : Relabels (Dict.get? a.data) (Dict.get? b.data)) : a.score = b.score := by
  have hset : ∀ {c : Crp}, c.Inv → ∀ k, k ∈ (Dict.values c.data).toFinset ↔ ∃ r, Dict.get? c.data r = some k := by
    intro c hc k
    rw [List.mem_toFinset]
    constructor
    · intro hk
      obtain ⟨⟨r, k'⟩, h1, rfl⟩ := List.mem_map.1 hk
      exact ⟨r, Dict.get?_of_mem hc.nodup h1⟩
    · rintro ⟨r, hr⟩
      exact List.mem_map.2 ⟨_, Dict.mem_of_get? hr, rfl⟩
  have hN : a.N = b.N := by
    rw [ha.N, hb.N, length_relabel ha.nodup hb.nodup fun k => ?_]
    constructor
    · intro h1
      by_contra h2
      obtain ⟨t, ht⟩ := Option.ne_none_iff_exists'.1 h2
      obtain ⟨t', ht'⟩ := h.symm.held ht
      rw [h1] at ht'
      cases ht'
    · intro h1
      by_contra h2
      obtain ⟨t, ht⟩ := Option.ne_none_iff_exists'.1 h2
      obtain ⟨t', ht'⟩ := h.held ht
      rw [h1] at ht'
      cases ht'
  have hcard : (Dict.keys a.counts).length = (Dict.keys b.counts).length := by
    have := sum_relabel h (hset ha) (hset hb) (F := fun _ => (1 : ℕ)) (F' := fun _ => 1) fun _ _ _ _ _ => rfl
    simp only [Finset.sum_const, smul_eq_mul, mul_one] at this
    rw [(tables_perm_dedup ha).length_eq, (tables_perm_dedup hb).length_eq]
    rwa [List.card_toFinset, List.card_toFinset] at this
  have hsum : ((Dict.values a.data).dedup.map fun t => gammaln (a.seated t)).sum =
      ((Dict.values b.data).dedup.map fun t => gammaln (b.seated t)).sum := by
    rw [← List.sum_toFinset _ (List.nodup_dedup _), ← List.sum_toFinset _ (List.nodup_dedup _),
      show (Dict.values a.data).dedup.toFinset = (Dict.values a.data).toFinset by ext; simp,
      show (Dict.values b.data).dedup.toFinset = (Dict.values b.data).toFinset by ext; simp]
    refine sum_relabel h (hset ha) (hset hb) fun r k k' h1 h2 => ?_
    have : a.seated k = b.seated k' := count_relabel ha.nodup hb.nodup fun r' => h.class h1 h2 r'
    rw [this]
  unfold score
  rw [hcard, halpha, hsum, hN]

/-! ## Primitives -/

theorem Spec.SameModel.kind {p q : Prim} (h : SameModel p q) : p.kind = q.kind := by
  cases p <;> cases q <;> first | rfl | exact h.elim

theorem Spec.SameModel.outputs {p q : Prim} (h : SameModel p q) : p.outputs = q.outputs := by
  cases p <;> cases q <;> first | exact h.1 | exact h.elim

theorem Spec.SameModel.shape {p q : Prim} (h : SameModel p q) : p.shape = q.shape := by
  unfold Prim.shape
  rw [h.outputs, h.kind]
  congr 1
  cases p <;> cases q <;> first | exact h.elim | exact h.2.2 | rfl

theorem Spec.SameModel.rfl' (p : Prim) : SameModel p p := by
  cases p <;> simp [SameModel]

theorem Spec.SameModel.symm {p q : Prim} (h : SameModel p q) : SameModel q p := by
  cases p <;> cases q <;> simp only [SameModel] at h ⊢ <;> simp [h]

theorem Spec.SameModel.trans {p q s : Prim} (h : SameModel p q) (h' : SameModel q s) : SameModel p s := by
  cases p <;> cases q <;> first | exact h.elim | skip
  all_goals (cases s <;> first | exact h'.elim | skip)
  all_goals (simp only [SameModel] at h h' ⊢; simp [h, h'])

theorem sameModel_clear (p : Prim) : SameModel p p.clearParams := by
  cases p <;> simp [SameModel, Prim.clearParams]

theorem sameModel_add (p : Prim) (r : RowId) (x : Val) : SameModel p (p.add r x) := by
  cases p <;> cases x <;> first | exact Spec.SameModel.rfl' _ | exact ⟨rfl, rfl⟩ | exact ⟨rfl, rfl, rfl⟩ |
    exact ⟨rfl, rfl, rfl, rfl, rfl⟩

theorem sameModel_observe {p : Prim} (h : p.Good) (r o i) : SameModel p (p.observe r o i).2 := by
  obtain ⟨x, hx⟩ := h.1.out
  rcases Prim.observe_cases hx r o i with ⟨e, he⟩ | ⟨v, _, _, _, _, he⟩ <;> rw [he]
  · exact Spec.SameModel.rfl' _
  · exact sameModel_add p r v

theorem sameModel_unobserve {p : Prim} (h : p.Good) (r) : SameModel p (p.unobserve r).2 := by
  obtain ⟨x, hx⟩ := h.1.out
  by_cases hr : r ∈ Dict.keys p.data
  · obtain ⟨v, hv⟩ := Dict.exists_get?_of_mem_keys hr
    rw [Prim.unobserve_held h.1 hx hv]
    cases p <;> cases v <;> first | exact Spec.SameModel.rfl' _ | exact ⟨rfl, rfl⟩ | exact ⟨rfl, rfl, rfl⟩ |
      exact ⟨rfl, rfl, rfl, rfl, rfl⟩
  · rw [Prim.unobserve_absent hr]
    exact Spec.SameModel.rfl' _

namespace Views
open Cpp
variable {Z : List Var}

theorem clusterOf_flat {v : View} {m : FlexMix (Cgpm 1)} {p : Product (Cgpm 0)} (hf : Flat v m p) (r : RowId) :
    clusterOf v r = Dict.get? m.rowidToComponent r := by
  unfold clusterOf
  rw [hf.outputs, List.headD_cons, hf.eq]
  exact if_pos rfl

theorem viewColumns_flat {v : View} {m : FlexMix (Cgpm 1)} {p : Product (Cgpm 0)} (hf : Flat v m p) :
    viewColumns v = p.cgpms.flatMap (cgpmI 0).outputs := by
  unfold viewColumns
  rw [hf.outputs]
  rfl

/-- The component of a cluster. -/
structure Part (Z : List Var) (v : View) (z : Val) (q : Product (Cgpm 0)) : Prop where
  reg : (cgpmTab Z 1).Reg (.product q : Node (Cgpm 0))
  columns : q.cgpms.flatMap (cgpmI 0).outputs = viewColumns v
  model : ∀ b ∈ q.cgpms, ∃ b0 ∈ primsIn 2 v, SameModel b0 b
  data : ∀ b ∈ q.cgpms, ∀ o, Prim.outputs b = [o] → ∀ r, Dict.get? (Prim.data b) r =
    if clusterOf v r = some z then (cgpmTab Z 2).cell v r o else none

theorem part_of {v : View} {m : FlexMix (Cgpm 1)} {p : Product (Cgpm 0)} (hf : Flat v m p)
    (h : (cgpmTab Z 2).Reg v) (z : Val) : ∃ q : Product (Cgpm 0),
      m.array.comp (cgpmSem 1) z = (.product q : Node (Cgpm 0)) ∧ Part Z v z q := by
  obtain ⟨q, h1, -⟩ := comp_product hf h z
  have h0 := h
  rw [hf.eq] at h
  have hreg : MixReg _ _ _ _ _ _ _ m := h
  obtain ⟨hr, ho⟩ := hreg.comp z (m.array.comp (cgpmSem 1) z) rfl
  have hfr := fun r => hreg.fresh r z (m.array.comp (cgpmSem 1) z) rfl
  rw [h1] at hr ho hfr
  have hcol : q.cgpms.flatMap (cgpmI 0).outputs = viewColumns v := by
    rw [viewColumns_flat hf]
    refine Eq.trans ho ?_
    change (cgpmI 1).outputs m.array.base = _
    rw [hf.base]
    rfl
  refine ⟨q, h1, hr, hcol, fun b hb => ?_, fun b hb o hbo r => ?_⟩
  · unfold FlexArray.comp at h1
    rcases hg : Dict.get? m.array.cgpms z with _ | c
    · rw [hg, hf.base] at h1
      have h1 : (Node.product ⟨p.cgpms.map Prim.clearParams⟩ : Node (Cgpm 0)) = .product q := h1
      injection h1 with h1
      subst h1
      obtain ⟨b0, hb0, rfl⟩ := List.mem_map.1 hb
      refine ⟨b0, ?_, sameModel_clear b0⟩
      rw [hf.eq]
      refine List.mem_cons_of_mem _ (List.mem_append_right _ ?_)
      rw [hf.base]
      exact List.mem_flatMap.2 ⟨b0, hb0, List.mem_singleton.2 rfl⟩
    · rw [hg] at h1
      have h1 : c = (.product q : Node (Cgpm 0)) := h1
      refine ⟨b, ?_, Spec.SameModel.rfl' _⟩
      rw [hf.eq]
      refine List.mem_cons_of_mem _ (List.mem_append_left _ (List.mem_flatMap.2 ⟨c, ?_, ?_⟩))
      · exact List.mem_map.2 ⟨_, Dict.mem_of_get? hg, rfl⟩
      · rw [h1]
        exact List.mem_flatMap.2 ⟨b, hb, List.mem_singleton.2 rfl⟩
  · have hoc : o ∈ viewColumns v := by
      rw [← hcol]
      exact List.mem_flatMap.2 ⟨b, hb, by change o ∈ Prim.outputs b; rw [hbo]; simp⟩
    have hne : o ≠ m.indexer := by
      rintro rfl
      refine hreg.x_out ?_
      change m.indexer ∈ (cgpmI 1).outputs m.array.base
      rw [hf.base]
      rw [viewColumns_flat hf] at hoc
      exact hoc
    have e1 : (cgpmTab Z 1).cell (.product q : Node (Cgpm 0)) r o = Dict.get? (Prim.data b) r := by
      refine (ProdTab.cell_of_mem (cgpmTLaws Z 0) hr.1 (Product.validate_nodup hr.2.1) hb (v := o)
        (by change o ∈ Prim.outputs b; rw [hbo]; simp) r).trans ?_
      change (if o ∈ Prim.outputs b then _ else none) = _
      rw [if_pos (by rw [hbo]; simp)]
    rw [← e1, clusterOf_flat hf]
    split
    · next hz =>
      rw [hf.eq]
      change _ = if o = m.indexer then _ else _
      rw [if_neg hne, hz, Option.bind_some]
      change _ = (some (m.array.comp (cgpmSem 1) z)).bind _
      rw [h1]
      rfl
    · next hz => exact hfr r hz o

/-- The score of the component of a cluster is a sum over the columns. -/
theorem Part.score {v : View} {z : Val} {q : Product (Cgpm 0)} (h : Part Z v z q) {f : Var → ℝ}
    (hf : ∀ b ∈ q.cgpms, ∀ o, Prim.outputs b = [o] → f o = Prim.score b) :
    (cgpmI 1).logpdfScore (.product q : Node (Cgpm 0)) = .ok (.fin ((viewColumns v).map f).sum) := by
  change Product.logpdfScore (cgpmI 0) q = _
  have e0 : q.cgpms.mapM (cgpmI 0).logpdfScore = .ok (q.cgpms.map fun b => Fl.fin (Prim.score b)) :=
    mapM_ok _ _ _ fun b hb => Prim.logpdfScore_eq (h.reg.1 b hb).1.1 (h.reg.1 b hb).1.2
  have e1 : (List.map Prim.score (show List Prim from q.cgpms)) = (viewColumns v).map f := by
    rw [← h.columns, List.map_flatMap]
    have : ∀ l : List Prim, (∀ b ∈ l, b ∈ (show List Prim from q.cgpms)) →
        l.map Prim.score = l.flatMap fun b => (Prim.outputs b).map f := by
      intro l hl
      induction l with
      | nil => rfl
      | cons b l ih =>
        rw [List.map_cons, List.flatMap_cons, ih fun b hb => hl b (by simp [hb])]
        obtain ⟨o, ho⟩ := (h.reg.1 b (hl b (by simp))).1.1.out
        rw [ho, List.map_singleton, hf b (hl b (by simp)) o ho]
        rfl
    exact this _ fun _ hb => hb
  unfold Product.logpdfScore
  rw [e0]
  simp only [bind, Except.bind, pure, Except.pure, Except.ok.injEq]
  exact (fl_sum_fin (show List Prim from q.cgpms) Prim.score).trans (by rw [e1])

/-- Clusters of two views with the same cells have the same score. -/
theorem Part.score_eq {v w : View} {z z' : Val} {q q' : Product (Cgpm 0)} (h : Part Z v z q) (h' : Part Z w z' q')
    (hcol : (viewColumns w).Perm (viewColumns v))
    (hm : ∀ p ∈ primsIn 2 v, ∀ q ∈ primsIn 2 w, p.outputs = q.outputs → SameModel p q)
    (hc : ∀ r, ∀ o ∈ viewColumns v, clusterOf v r = some z → (cgpmTab Z 2).cell w r o = (cgpmTab Z 2).cell v r o)
    (hz : ∀ r, clusterOf v r = some z ↔ clusterOf w r = some z') :
    (cgpmI 1).logpdfScore (.product q : Node (Cgpm 0)) = (cgpmI 1).logpdfScore (.product q' : Node (Cgpm 0)) := by
  classical
  have nd : (q.cgpms.flatMap (cgpmI 0).outputs).Nodup := Product.validate_nodup h.reg.2.1
  have nd' : (q'.cgpms.flatMap (cgpmI 0).outputs).Nodup := Product.validate_nodup h'.reg.2.1
  let f : Var → ℝ := fun o => if ho : ∃ b ∈ q.cgpms, Prim.outputs b = [o] then Prim.score ho.choose else 0
  have hf : ∀ b ∈ q.cgpms, ∀ o, Prim.outputs b = [o] → f o = Prim.score b := by
    intro b hb o ho
    have hex : ∃ b ∈ q.cgpms, Prim.outputs b = [o] := ⟨b, hb, ho⟩
    change (if ho : ∃ b ∈ q.cgpms, Prim.outputs b = [o] then Prim.score ho.choose else 0) = _
    rw [dif_pos hex]
    obtain ⟨h1, h2⟩ := hex.choose_spec
    rw [eq_of_output nd h1 hb h2 ho]
  rw [h.score hf, h'.score (f := f) ?_, (hcol.map f).sum_eq]
  intro b' hb' o ho
  have hov : o ∈ viewColumns v := by
    rw [← hcol.mem_iff, ← h'.columns]
    exact List.mem_flatMap.2 ⟨b', hb', by change o ∈ Prim.outputs _; rw [ho]; simp⟩
  have hov' := hov
  rw [← h.columns] at hov'
  obtain ⟨b, hb, hbo⟩ := List.mem_flatMap.1 hov'
  have hg := (h.reg.1 b hb).1
  have hg' := (h'.reg.1 b' hb').1
  have hbo : Prim.outputs b = [o] := by
    obtain ⟨o', ho'⟩ := hg.1.out
    have hbo : o ∈ Prim.outputs b := hbo
    rw [ho', List.mem_singleton] at hbo
    rw [ho', hbo]
  rw [hf b hb o hbo]
  obtain ⟨b0, h1, h2⟩ := h.model b hb
  obtain ⟨b0', h1', h2'⟩ := h'.model b' hb'
  have hsame : SameModel b b' :=
    (h2.symm).trans ((hm b0 h1 b0' h1' (by rw [h2.outputs, h2'.outputs, hbo, ho])).trans h2')
  have hperm : (Prim.data b).Perm (Prim.data b') := by
    refine Dict.perm_of_get? hg.1.nodup hg'.1.nodup fun r => ?_
    rw [h.data b hb o hbo r, h'.data b' hb' o ho r]
    by_cases h3 : clusterOf v r = some z
    · rw [if_pos h3, if_pos ((hz r).1 h3), hc r o hov h3]
    · rw [if_neg h3, if_neg fun h4 => h3 ((hz r).2 h4)]
  have hheld : (held b).Perm (held b') := by
    unfold held valuesOf present
    exact (hperm.map _).filterMap _
  have := (Prim.congr hg.1 hg'.1 hg.2 hsame hheld).1
  rw [Prim.logpdfScore_eq hg.1 hg.2, Prim.logpdfScore_eq hg'.1 hg'.2] at this
  injection this with this
  injection this

theorem part_empty {v : View} {z : Val} {q : Product (Cgpm 0)} (h : Part Z v z q)
    (hz : ∀ r, clusterOf v r ≠ some z) : (cgpmI 1).logpdfScore (.product q : Node (Cgpm 0)) = .ok (.fin 0) := by
  rw [h.score (f := fun _ => 0)]
  · simp
  · intro b hb o ho
    have hd : Prim.data b = [] := by
      refine List.eq_nil_iff_forall_not_mem.2 ?_
      rintro ⟨r, x⟩ hx
      have h1 := Dict.get?_of_mem (h.reg.1 b hb).1.1.nodup hx
      rw [h.data b hb o ho r, if_neg (hz r)] at h1
      cases h1
    exact (Prim.score_empty (h.reg.1 b hb).1.1 hd).symm

/-- The score of a view depends on its hyperparameters, its cells and which rows are together. -/
theorem score_determined {v w : View} (h : (cgpmTab Z 2).Reg v) (h' : (cgpmTab Z 2).Reg w) (hv : IsView v)
    (hw : IsView w) (hx : ((cgpmI 2).outputs w).headD 0 = ((cgpmI 2).outputs v).headD 0)
    (hcol : (viewColumns w).Perm (viewColumns v))
    (hm : ∀ p ∈ primsIn 2 v, ∀ q ∈ primsIn 2 w, p.outputs = q.outputs → SameModel p q)
    (hc : ∀ r, ∀ o ∈ viewColumns v, (cgpmTab Z 2).cell w r o = (cgpmTab Z 2).cell v r o)
    (hz : Relabels (clusterOf v) (clusterOf w)) :
    (cgpmI 2).logpdfScore v = (cgpmI 2).logpdfScore w := by
  obtain ⟨m, p, hf⟩ := flat_of_reg h hv
  obtain ⟨n, q, hg⟩ := flat_of_reg h' hw
  have hm1 := h
  have hn1 := h'
  rw [hf.eq] at hm1
  rw [hg.eq] at hn1
  have hmr : MixReg _ _ _ _ _ _ _ m := hm1
  have hnr : MixReg _ _ _ _ _ _ _ n := hn1
  -- the clusters
  have form : ∀ {u : View} {k : FlexMix (Cgpm 1)} {o : Product (Cgpm 0)}, Flat u k o → (cgpmTab Z 2).Reg u →
      ∃ L : Finset Val, (∀ z, z ∈ L ↔ ∃ r, clusterOf u r = some z) ∧
        (flexArrayI (cgpmI 1)).logpdfScore k.array = .ok (∑ z ∈ L, FlexArray.sc (cgpmI 1) (k.array.comp (cgpmSem 1) z)) := by
    intro u k o hu hru
    have hkr := hru
    rw [hu.eq] at hkr
    have hkr : MixReg _ _ _ _ _ _ _ k := hkr
    refine ⟨(Dict.values k.rowidToComponent).toFinset, fun z => ?_, ?_⟩
    · rw [List.mem_toFinset]
      constructor
      · intro hz
        obtain ⟨⟨r, k'⟩, h1, rfl⟩ := List.mem_map.1 hz
        exact ⟨r, by rw [clusterOf_flat hu]; exact Dict.get?_of_mem hkr.inv.2.2.1 h1⟩
      · rintro ⟨r, hr⟩
        rw [clusterOf_flat hu] at hr
        exact List.mem_map.2 ⟨_, Dict.mem_of_get? hr, rfl⟩
    · refine (FlexArray.score_eq (cgpmLaws 1) hkr.inv.2.1 ((Dict.keys k.array.cgpms).toFinset ∪
        (Dict.values k.rowidToComponent).toFinset) Finset.subset_union_left).trans ?_
      congr 1
      refine (Finset.sum_subset Finset.subset_union_right fun z _ hz => ?_).symm
      obtain ⟨q', hq', hpart⟩ := part_of hu hru z
      rw [hq']
      unfold FlexArray.sc
      rw [part_empty hpart fun r hr => hz ?_]
      · rfl
      · rw [clusterOf_flat hu] at hr
        exact List.mem_toFinset.2 (List.mem_map.2 ⟨_, Dict.mem_of_get? hr, rfl⟩)
  obtain ⟨L, hL, eL⟩ := form hf h
  obtain ⟨L', hL', eL'⟩ := form hg h'
  have hsum : ∑ z ∈ L, FlexArray.sc (cgpmI 1) (m.array.comp (cgpmSem 1) z) =
      ∑ z ∈ L', FlexArray.sc (cgpmI 1) (n.array.comp (cgpmSem 1) z) := by
    refine sum_relabel hz hL hL' fun r k k' h1 h2 => ?_
    obtain ⟨a, ha, hpa⟩ := part_of hf h k
    obtain ⟨b, hb, hpb⟩ := part_of hg h' k'
    rw [ha, hb]
    unfold FlexArray.sc
    rw [hpa.score_eq hpb hcol hm (fun r o ho _ => hc r o ho) fun r' => hz.class h1 h2 r']
  -- the seating
  have hcrp : m.rowDivide.logpdfScore = n.rowDivide.logpdfScore := by
    have hk := hf.kind
    have hk' := hg.kind
    have hsm : SameModel m.rowDivide n.rowDivide := by
      refine hm _ ?_ _ ?_ ?_
      · rw [hf.eq]; exact List.mem_cons_self
      · rw [hg.eq]; exact List.mem_cons_self
      · rw [hf.out, hg.out]
        rw [hf.outputs, hg.outputs, List.headD_cons, List.headD_cons] at hx
        rw [hx]
    have hr : Relabels (Dict.get? m.rowDivide.data) (Dict.get? n.rowDivide.data) := by
      intro r r'
      rw [hmr.data, hmr.data, hnr.data, hnr.data, ← clusterOf_flat hf, ← clusterOf_flat hf, ← clusterOf_flat hg,
        ← clusterOf_flat hg]
      exact hz r r'
    have hI := hmr.inv.1
    have hI' := hnr.inv.1
    rcases hd : m.rowDivide with c | c | c | c | c | c
    rotate_left
    all_goals try (rw [hd] at hk; cases hk)
    rcases hd' : n.rowDivide with c' | c' | c' | c' | c' | c'
    rotate_left
    all_goals try (rw [hd'] at hk'; cases hk')
    rw [hd] at hsm hr hI
    rw [hd'] at hsm hr hI'
    have h1 := Prim.logpdfScore_eq hI.1 hI.2
    have h2 := Prim.logpdfScore_eq hI'.1 hI'.2
    rw [h1, h2]
    have hr' : Relabels (Dict.get? c.data) (Dict.get? c'.data) := by
      have hval : ∀ (d : Crp) (r : RowId) (k : Val), Dict.get? (Prim.data (.crp d)) r = some k ↔
          ∃ i : Int, Dict.get? d.data r = some i ∧ k = .num (i : ℚ) := by
        intro d r k
        have : Dict.get? (Prim.data (.crp d)) r = (Dict.get? d.data r).map fun i : Int => Val.num (i : ℚ) := by
          exact Prim.get?_map_data _ _
        rw [this, Option.map_eq_some_iff]
        simp only [eq_comm]
      have hinj : ∀ (d : Crp) (r r' : RowId), (∃ k, Dict.get? (Prim.data (.crp d)) r = some k ∧
          Dict.get? (Prim.data (.crp d)) r' = some k) ↔ ∃ i, Dict.get? d.data r = some i ∧ Dict.get? d.data r' = some i := by
        intro d r r'
        constructor
        · rintro ⟨k, h1, h2⟩
          obtain ⟨i, h3, rfl⟩ := (hval d r k).1 h1
          obtain ⟨j, h4, h5⟩ := (hval d r' _).1 h2
          have : i = j := by
            injection h5 with h5
            exact_mod_cast h5
          exact ⟨i, h3, this ▸ h4⟩
        · rintro ⟨i, h1, h2⟩
          exact ⟨_, (hval d r _).2 ⟨i, h1, rfl⟩, (hval d r' _).2 ⟨i, h2, rfl⟩⟩
      intro r r'
      rw [← hinj, ← hinj]
      exact hr r r'
    change Except.ok (Fl.fin c.score) = .ok (.fin c'.score)
    rw [Crp.score_relabel hI.1 hI'.1 hsm.2 hr']
  rw [hf.eq, hg.eq]
  change RowMix.logpdfScore (flexArrayI (cgpmI 1)) m = RowMix.logpdfScore (flexArrayI (cgpmI 1)) n
  unfold RowMix.logpdfScore
  rw [hcrp, eL, eL', hsum]

end Views

end Cgpm2
