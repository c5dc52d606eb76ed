import Verif.Lemmas.ViewTotal
import Verif.Lemmas.CppUpdate

/-!
# Moves of rows between clusters of a view succeed (helpers)
-/

namespace Cgpm2.Views
open Spec Cpp

/-- The values of the observation are legal for the columns of the view. -/
def TakesAll (v : View) (ob : Dict Var Val) : Prop :=
  ∀ o ∈ viewColumns v, ∀ x, Dict.get? ob o = some x → Takes v o x

theorem Flat.uniq {v : View} {m m' : FlexMix (Cgpm 1)} {p p' : Product (Cgpm 0)} (h : Flat v m p)
    (h' : Flat v m' p') : m' = m ∧ p' = p := by
  have e := h'.eq
  rw [h.eq] at e
  injection e with e
  subst e
  have e := h'.base
  rw [h.base] at e
  injection e with e
  exact ⟨rfl, e.symm⟩

/-- The cells of a view are legal for its columns. -/
theorem takes_cell {Z : List Var} {v : View} (h : (cgpmTab Z 2).Reg v) (hv : IsView v) {o : Var}
    (hz : o ∉ Z) {r : RowId} {x : Val} (hc : (cgpmTab Z 2).cell v r o = some x) :
    Takes v o x := by
  obtain ⟨m, p, hf⟩ := flat_of_reg h hv
  have h0 := h
  rw [hf.eq] at h hc
  have hreg : MixReg _ _ _ _ _ _ _ m := h
  have hne : o ≠ m.indexer := fun e => hz (e ▸ hreg.x_mem)
  have hc : (if o = m.indexer then _ else (Dict.get? m.rowidToComponent r).bind fun z =>
    (some (m.array.comp (cgpmSem 1) z)).bind fun c => (cgpmTab Z 1).cell c r o) = some x := hc
  rw [if_neg hne] at hc
  rcases hr : Dict.get? m.rowidToComponent r with _ | z
  · rw [hr] at hc; cases hc
  rw [hr] at hc
  change (cgpmTab Z 1).cell (m.array.comp (cgpmSem 1) z) r o = some x at hc
  have hcr := (hreg.comp z (m.array.comp (cgpmSem 1) z) rfl).1
  have hcopy := (hreg.inv.2.1.2.1 z).2.2
  rw [hf.base] at hcopy
  refine ⟨m, p, hf, ?_⟩
  revert hcopy hcr hc
  generalize m.array.comp (cgpmSem 1) z = c
  intro hc hcr hcopy
  rcases c with c | c | c | c | c | c
  · cases hcopy
  · obtain ⟨q, hq, hqc⟩ : ∃ q ∈ c.cgpms, (primTab Z).cell q r o ≠ none := by
      by_contra hcon
      push Not at hcon
      exact absurd (hc.symm.trans (ProdTab.cell_none_iff.2 hcon)) nofun
    have hout : o ∈ Prim.outputs q := by
      by_contra hcon
      exact hqc (if_neg hcon)
    have hval : (primTab Z).cell q r o = some x :=
      (ProdTab.cell_of_mem (cgpmTLaws Z 0) hcr.1 (Product.validate_nodup hcr.2.1) hq hout r).symm.trans hc
    have hq1 : (primTab Z).Reg q := hcr.1 q hq
    obtain ⟨a, ha⟩ := (show (q : Prim).Inv from hq1.1.1).out
    have hao : Prim.outputs q = [o] := by
      rw [ha, List.mem_singleton] at hout
      rw [ha, hout]
    have hk : Prim.kind q ≠ .crp := fun hk => hz (hq1.2.2.1 hk o hout)
    have hd : Dict.get? (Prim.data q) r = some x := by
      have : (if o ∈ Prim.outputs q then Dict.get? (Prim.data q) r else none) = some x := hval
      rwa [if_pos hout] at this
    obtain ⟨b', hb', he⟩ := shape_prims hcopy (q := q) (List.mem_flatMap.2 ⟨q, hq, List.mem_singleton.2 rfl⟩)
    unfold Prim.shape at he
    injection he with e1 e2 e3
    exact ⟨b', hb', e1.trans hao, e2 ▸ hk, (legal_of_kind e2 e3 (e2 ▸ hk)).2
      (legal_of_mem hq1.1.1 hk (Dict.mem_of_get? hd))⟩
  · exact hcr.elim
  · exact hcr.elim
  · cases hcopy
  · cases hcopy

/-- Observing legal values in a Product. -/
theorem product_observes {Z : List Var} {c : Product (Cgpm 0)}
    (h : (cgpmTab Z 1).Reg (.product c : Node (Cgpm 0))) {r : RowId} {ob : Dict Var Val}
    (hn : (Dict.keys ob).Nodup) (hf : (cgpmTab Z 1).Fresh (.product c : Node (Cgpm 0)) r)
    (hl : ∀ q ∈ c.cgpms, ∀ o x, Prim.outputs q = [o] → Dict.get? ob o = some x → Prim.Legal q x) (g : Rng) :
    ∃ c', (cgpmI 1).observe r ob [] ((.product c : Node (Cgpm 0)), g) = (.ok (), (c', g)) := by
  obtain ⟨as, l', he⟩ := each_still (m := observeOne (cgpmI 0) r ob []) (l := c.cgpms) g (by
    intro q hq
    have hin : (cgpmI 0).inputs q = [] := (cgpmTLaws Z 0).inputs q (h.1 q hq)
    obtain ⟨o, ho⟩ := (show (q : Prim).Inv from (h.1 q hq).1.1).out
    rw [observeOne_eq, hin, only_nil, only_nil]
    rw [show only ((cgpmI 0).outputs q) ob = only [o] ob from by rw [show (cgpmI 0).outputs q = [o] from ho]]
    rcases hx : Dict.get? ob o with _ | x
    · rw [only_eq_nil (by simpa using hx), if_pos rfl]
      exact ⟨_, _, rfl⟩
    · rw [only_single hn hx, if_neg (by simp)]
      have hr : r ∉ Dict.keys (Prim.data q) := by
        rw [← Dict.get?_eq_none_iff]
        have : (primTab Z).cell q r o = none := ProdTab.cell_none_iff.1 (hf o) q hq
        simpa [primTab, ho] using this
      refine ⟨(), Prim.add q r x, ?_⟩
      have := Prim.observe_ok ho hr (hl q hq o x ho hx)
      change ((Prim.observe r [(o, x)] [] q).1, (Prim.observe r [(o, x)] [] q).2, g) = _
      rw [this]
      rfl)
  refine ⟨.product ⟨l'⟩, inside_eq (m := Product.observe (cgpmI 0) r ob []) ?_⟩
  unfold Product.observe
  rw [Py.bind_apply]
  unfold Product.each Py.onAttr
  dsimp only
  rw [he]
  rfl

/-- Observing a row of a view, with its cluster, succeeds and draws nothing. -/
theorem view_observes {Z : List Var} {v : View} (h : (cgpmTab Z 2).Reg v) (hv : IsView v) {ob : Dict Var Val}
    (ht : TakesAll v ob) (hn : (Dict.keys ob).Nodup) {r : RowId} (hp : (cgpmTab Z 2).Fresh v r)
    {z : Val} (hz : Dict.get? ob (((cgpmI 2).outputs v).headD 0) = some z) {d : Prim}
    (hd : Node.rowDivide v = some d) (hl : d.Legal z) (g : Rng) :
    ∃ v', (cgpmI 2).observe r ob [] (v, g) = (.ok (), (v', g)) := by
  obtain ⟨m, p, hf⟩ := flat_of_reg h hv
  have h0 := h
  rw [hf.eq] at h hp hd hz
  have hz : Dict.get? ob m.indexer = some z := by
    rw [← hf.eq, hf.outputs] at hz
    exact hz
  cases hd
  have hreg : MixReg _ _ _ _ _ _ _ m := h
  have hr : Dict.get? m.rowidToComponent r = none := by
    have := hp m.indexer
    exact (if_pos rfl).symm.trans this
  have hcr := (hreg.comp z (m.array.comp (cgpmSem 1) z) rfl).1
  have hcopy := (hreg.inv.2.1.2.1 z).2.2
  have hfr : (cgpmTab Z 1).Fresh (m.array.comp (cgpmSem 1) z) r := hreg.fresh r z _ rfl (by rw [hr]; nofun)
  have hout : (flexArrayI (cgpmI 1)).outputs m.array = p.cgpms.flatMap (cgpmI 0).outputs := by
    change (cgpmI 1).outputs m.array.base = _
    rw [hf.base]; rfl
  have hcols : viewColumns v = p.cgpms.flatMap (cgpmI 0).outputs := by
    unfold viewColumns; rw [hf.outputs]; rfl
  obtain ⟨c', hc'⟩ : ∃ c', (cgpmI 1).observe r (only ((flexArrayI (cgpmI 1)).outputs m.array) ob) []
      (m.array.comp (cgpmSem 1) z, g) = (.ok (), (c', g)) := by
    rw [hf.base] at hcopy
    revert hcopy hcr hfr
    generalize m.array.comp (cgpmSem 1) z = c
    intro hcr hcopy hfr
    rcases c with c | c | c | c | c | c
    · cases hcopy
    · refine product_observes hcr ?_ hfr (fun q hq o x ho hx => ?_) g
      · exact hn.sublist (List.filter_sublist.map _)
      · obtain ⟨b', hb', he⟩ := shape_prims hcopy (q := q) (List.mem_flatMap.2 ⟨q, hq, List.mem_singleton.2 rfl⟩)
        unfold Prim.shape at he
        injection he with e1 e2 e3
        have hoc : o ∈ p.cgpms.flatMap (cgpmI 0).outputs :=
          List.mem_flatMap.2 ⟨b', hb', by change o ∈ Prim.outputs b'; rw [e1, ho]; simp⟩
        have hx' : Dict.get? ob o = some x := by
          have := hx
          rw [get?_only, hout] at this
          rwa [if_pos hoc] at this
        obtain ⟨m1, p1, hf1, b, hb, h1, h2, h3⟩ := ht o (hcols ▸ hoc) x hx'
        obtain ⟨rfl, rfl⟩ := hf.uniq hf1
        have : b' = b := eq_of_output hf.nodup hb' hb (e1.trans ho) h1
        subst this
        exact (legal_of_kind e2 e3 h2).1 h3
    · exact hcr.elim
    · exact hcr.elim
    · cases hcopy
    · cases hcopy
  rw [hf.eq]
  exact ⟨_, inside_eq (RowMix.observe_accept (flexArrLaws (cgpmLaws 1)) hreg hr hz hl rfl [] hc')⟩

theorem crp_legal {d : Prim} (hg : d.Good) (hk : d.kind = .crp) {r : RowId} {x : Val}
    (hx : Dict.get? d.data r = some x) : d.Legal x := by
  cases d with
  | crp c =>
    have hmem := Dict.mem_of_get? hx
    simp only [Prim.data, List.mem_map] at hmem
    obtain ⟨⟨r', k⟩, hkv, e⟩ := hmem
    cases e
    refine ⟨_, rfl, ?_⟩
    rw [truncate_intCast, Crp.mem_support_iff hg.1]
    exact .inl (List.mem_map.2 ⟨_, hkv, rfl⟩)
  | _ => cases hk

theorem crp_last {d : Prim} (hk : d.kind = .crp) : ∃ supp k, d.support = .ok supp ∧
    supp.getLast? = some k ∧ d.Legal (.num ((k : Int) : ℚ)) := by
  cases d with
  | crp c =>
    obtain ⟨f, h1, -⟩ := Crp.support_eq (c := c)
    refine ⟨c.support, f, rfl, by rw [h1]; simp, _, rfl, ?_⟩
    rw [truncate_intCast, h1]
    simp
  | _ => cases hk

theorem present_cluster {Z : List Var} {v : View} (h : (cgpmTab Z 2).Reg v) (hv : IsView v) (r : RowId) :
    (cgpmTab Z 2).present v r ↔ clusterOf v r ≠ none := by
  obtain ⟨m, p, hf⟩ := flat_of_reg h hv
  rw [clusterOf_eq Z, hf.outputs, hf.eq, List.headD_cons]
  change Dict.get? m.rowidToComponent r ≠ none ↔ (if m.indexer = m.indexer then Dict.get? m.rowidToComponent r else _) ≠ none
  rw [if_pos rfl]

/-- What is taken out of a view can be put back into it. -/
theorem take_out {Z : List Var} {v : View} (h : (cgpmTab Z 2).Reg v) (hv : IsView v)
    (hp : ∀ o ∈ viewColumns v, o ∉ Z) {r : RowId} (hr : (cgpmTab Z 2).present v r) (g : Rng) :
    ∃ ob v1 d1 d, (cgpmI 2).unobserve r (v, g) = (.ok (ob, []), (v1, g)) ∧ Node.rowDivide v = some d ∧
      Node.rowDivide v1 = some d1 ∧ d1.kind = .crp ∧ d1.Good ∧ Node.IsFlexible v ∧
      (∀ r', r' ≠ r → Dict.get? d1.data r' = Dict.get? d.data r') ∧
      (∀ r', Dict.get? d.data r' = clusterOf v r') ∧
      ∀ k, d1.Legal k → ∃ v', (cgpmI 2).observe r (Dict.set ob (d1.outputs.headD 0) k) [] (v1, g) =
        (.ok (), (v', g)) := by
  have K := cgpmTLaws Z 2
  obtain ⟨ob, v1, e1, e2, e3, e4, e5, e6, e7⟩ := K.unobserve v r g h hr
  have hs : (cgpmSem 2).shape v1 = (cgpmSem 2).shape v := by
    have := (cgpmLaws 2).shape_unobserve (K.inv _ h) r g
    rwa [e1] at this
  have ho : (cgpmI 2).outputs v1 = (cgpmI 2).outputs v := by
    have := congrArg (fun x => x.1) ((cgpmLaws 2).unobserve_attrs r v g (K.inv _ h))
    rw [e1] at this
    exact this
  have hv1 := isView_of_shape hs e2 hv
  obtain ⟨d, z, supp, hd, hz, hm⟩ := view_mixture h hv
  obtain ⟨d1, z1, supp1, hd1, hz1, hm1⟩ := view_mixture e2 hv1
  obtain ⟨hG, -, ⟨z', _, hz2, -, -, -, -⟩, hdata1⟩ := reg_rowDivide (n := 1) e2 hd1
  obtain ⟨-, -, ⟨z'', _, hz3, -, -, -, -⟩, hdata⟩ := reg_rowDivide (n := 1) h hd
  have hzz : z'' = z := by
    obtain ⟨d', a1, a2, -⟩ := rowDivide_of_mixture hm
    rw [hd] at a1
    cases a1
    rw [hz3] at a2
    simpa using a2
  have hzz1 : z' = z1 := by
    obtain ⟨d', a1, a2, -⟩ := rowDivide_of_mixture hm1
    rw [hd1] at a1
    cases a1
    rw [hz2] at a2
    simpa using a2
  have h01 : z1 = z := by rw [← hz, ← hz1, ho]
  subst hzz hzz1 h01
  refine ⟨ob, v1, .crp d1, .crp d, e1, hd, hd1, rfl, hG, ?_, fun r' hr' => ?_, fun r' => ?_, fun k hk => ?_⟩
  · obtain ⟨m, p, hf⟩ := flat_of_reg h hv
    rw [hf.eq]
    trivial
  · rw [hdata1 r' _ hz2, hdata r' _ hz3, e6 r' _ hr']
  · rw [hdata r' _ hz3, clusterOf_eq Z, hz]
  · rw [hz2, List.headD_cons]
    refine view_observes (Z := Z) e2 hv1 (fun o hoc x hx => ?_) (Dict.nodup_keys_set _ _ _ e3) e5 (z := k)
      (by rw [hz1, Dict.get?_set, if_pos rfl]) hd1 hk g
    have hoc' : o ∈ viewColumns v := by unfold viewColumns at hoc ⊢; rwa [ho] at hoc
    have hne : o ≠ z' := by
      rintro rfl
      have hn := K.nodup v1 e2
      obtain ⟨m, p, hf⟩ := flat_of_reg e2 hv1
      unfold viewColumns at hoc
      rw [hf.outputs] at hn hoc hz1
      rw [← hz1] at hoc
      exact (List.nodup_cons.1 hn).1 hoc
    rw [Dict.get?_set, if_neg (Ne.symm hne), e4] at hx
    exact (takes_cell h hv (hp o hoc') hx).shape e2 hs

/-- Giving a row of a view its own cluster succeeds. -/
theorem own_total {Z : List Var} {v : View} (h : (cgpmTab Z 2).Reg v) (hv : IsView v)
    (hp : ∀ o ∈ viewColumns v, o ∉ Z) {r : RowId} (hr : (cgpmTab Z 2).present v r) (g : Rng) :
    ∃ v', setRowidComponent (cgpmI 1) false r none (v, g) = (.ok (), (v', g)) := by
  obtain ⟨ob, v1, d1, d, hu, hd, hd1, hk, -, hf, -, -, ho⟩ := take_out h hv hp hr g
  obtain ⟨supp, k, h1, h2, h3⟩ := crp_last hk
  obtain ⟨v', h4⟩ := ho _ h3
  exact ⟨v', (setRowid_none_eq (I := cgpmI 1) hd hf hu hd1 h1 h2).trans h4⟩

/-- Giving a row of a view the cluster of another one succeeds. -/
theorem joins_total {Z : List Var} {v : View} (h : (cgpmTab Z 2).Reg v) (hv : IsView v)
    (hp : ∀ o ∈ viewColumns v, o ∉ Z) {r : RowId} (hr : (cgpmTab Z 2).present v r) {r1 : Int}
    (hne : r ≠ some r1) (hr1 : (cgpmTab Z 2).present v (some r1)) (g : Rng) :
    ∃ v', setRowidComponent (cgpmI 1) false r (some r1) (v, g) = (.ok (), (v', g)) := by
  obtain ⟨ob, v1, d1, d, hu, hd, hd1, hk, hG, -, hsame, hcl, ho⟩ := take_out h hv hp hr g
  obtain ⟨k, hk1⟩ : ∃ k, Dict.get? d.data (some r1) = some k := by
    rw [hcl]
    exact Option.ne_none_iff_exists'.1 ((present_cluster h hv _).1 hr1)
  obtain ⟨v', h4⟩ := ho k (crp_legal hG hk ((hsame _ (Ne.symm hne)).trans hk1))
  exact ⟨v', (setRowid_some_eq (I := cgpmI 1) hd hk1 hu hd1).trans h4⟩

end Cgpm2.Views
