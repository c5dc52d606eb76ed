import Verif.Lemmas.LifeRun
import Verif.Lemmas.Kernels

/-!
# Observations that return (helpers)
-/

namespace Cgpm2.Views
open Spec

/-- The part of a dict at one variable. -/
theorem only_one {ob : Dict Var Val} (hn : (Dict.keys ob).Nodup) (a : Var) :
    only [a] ob = match Dict.get? ob a with | none => [] | some x => [(a, x)] := by
  rcases h : Dict.get? ob a with _ | x
  · exact only_eq_nil (by simpa using h)
  · exact only_single hn h

theorem product_takes {Z : List Var} {c : Product (Cgpm 0)}
    (h : (cgpmTab Z 1).Reg (.product c : Node (Cgpm 0))) {r : RowId} {ob : Dict Var Val}
    (hn : (Dict.keys ob).Nodup)
    (hc : ∀ a x, Dict.get? ob a = some x → (cgpmTab Z 1).cell (.product c : Node (Cgpm 0)) r a = none)
    (hl : ∀ q ∈ c.cgpms, ∀ a x, Prim.outputs q = [a] → Dict.get? ob a = some x → Prim.Legal q x) (g : Rng) :
    ∃ c', (cgpmI 1).observe r ob [] ((.product c : Node (Cgpm 0)), g) = (.ok (), (c', g)) := by
  obtain ⟨as, l', he⟩ := each_still (m := observeOne (cgpmI 0) r ob []) (l := c.cgpms) g (by
    intro q hq
    have hin : (cgpmI 0).inputs q = [] := (cgpmTLaws Z 0).inputs q (h.1 q hq)
    obtain ⟨a, ha⟩ := (show (q : Prim).Inv from (h.1 q hq).1.1).out
    rw [observeOne_eq, hin, only_nil, only_nil]
    rw [show only ((cgpmI 0).outputs q) ob = _ from (by rw [← only_one hn a, ← ha]; rfl :
      only ((cgpmI 0).outputs q) ob = match Dict.get? ob a with | none => [] | some x => [(a, x)])]
    rcases hx : Dict.get? ob a with _ | x
    · rw [if_pos rfl]
      exact ⟨_, _, rfl⟩
    · dsimp only
      rw [if_neg (by simp)]
      have hr : r ∉ Dict.keys (Prim.data q) := by
        rw [← Dict.get?_eq_none_iff]
        have : (primTab Z).cell q r a = none := ProdTab.cell_none_iff.1 (hc a x hx) q hq
        simpa [primTab, ha] using this
      refine ⟨(), Prim.add q r x, ?_⟩
      have := Prim.observe_ok ha hr (hl q hq a x ha hx)
      change ((Prim.observe r [(a, x)] [] q).1, (Prim.observe r [(a, x)] [] q).2, g) = _
      rw [this]
      rfl)
  refine ⟨.product ⟨l'⟩, inside_eq (m := Product.observe (cgpmI 0) r ob []) ?_⟩
  unfold Product.observe
  rw [Py.bind_apply]
  unfold Product.each Py.onAttr
  dsimp only
  rw [he]
  rfl

theorem comp_takes {Z : List Var} {m : FlexMix (Cgpm 1)} {p : Product (Cgpm 0)} {v : View} (hf : Flat v m p)
    (h : (cgpmTab Z 2).Reg v) {ob : Dict Var Val} (hn : (Dict.keys ob).Nodup)
    (hl : ∀ b ∈ p.cgpms, ∀ a x, Prim.outputs b = [a] → Dict.get? ob a = some x → Prim.kind b ≠ .crp ∧ Prim.Legal b x)
    (z : Val) {r : RowId}
    (hc : ∀ a x, Dict.get? ob a = some x → (cgpmTab Z 1).cell (m.array.comp (cgpmSem 1) z) r a = none) (g : Rng) :
    ∃ c', (cgpmI 1).observe r ob [] (m.array.comp (cgpmSem 1) z, g) = (.ok (), (c', g)) := by
  rw [hf.eq] at h
  have hreg : MixReg _ _ _ _ _ _ _ m := h
  have hcr := (hreg.comp z (m.array.comp (cgpmSem 1) z) rfl).1
  have hcopy := (hreg.inv.2.1.2.1 z).2.2
  rw [hf.base] at hcopy
  revert hcopy hcr hc
  generalize m.array.comp (cgpmSem 1) z = c
  intro hc hcr hcopy
  rcases c with c | c | c | c | c | c
  · cases hcopy
  · refine product_takes hcr hn hc (fun q hq a x ha hx => ?_) g
    obtain ⟨b', hb', he⟩ := shape_prims hcopy (q := q) (List.mem_flatMap.2 ⟨q, hq, List.mem_singleton.2 rfl⟩)
    unfold Prim.shape at he
    injection he with e1 e2 e3
    obtain ⟨k1, k2⟩ := hl b' hb' a x (e1.trans ha) hx
    exact (legal_of_kind e2 e3 k1).1 k2
  · exact hcr.elim
  · exact hcr.elim
  · cases hcopy
  · cases hcopy

/-- Observing cells of a view that it does not have, with legal values, succeeds. -/
theorem view_takes {Z : List Var} {v : View} (h : (cgpmTab Z 2).Reg v) {ob : Dict Var Val}
    (hn : (Dict.keys ob).Nodup) (ht : ∀ a x, Dict.get? ob a = some x → a ∉ Z ∧ Takes v a x) {r : RowId}
    (hc : ∀ a x, Dict.get? ob a = some x → (cgpmTab Z 2).cell v r a = none) (hv : IsView v) (g : Rng) :
    ∃ v' g', (cgpmI 2).observe r ob [] (v, g) = (.ok (), (v', g')) ∧ Within 1 g g' := by
  obtain ⟨m, p, hf⟩ := flat_of_reg h hv
  have h0 := h
  have ht' : ∀ b ∈ p.cgpms, ∀ a x, Prim.outputs b = [a] → Dict.get? ob a = some x →
      Prim.kind b ≠ .crp ∧ Prim.Legal b x := by
    intro b hb a x ha hx
    obtain ⟨m', p', hf', b', hb', h1, h2, h3⟩ := (ht a x hx).2
    obtain rfl : m = m' := by have := hf.eq.symm.trans hf'.eq; injection this
    obtain rfl : p = p' := by have := hf.base.symm.trans hf'.base; injection this
    obtain rfl : b' = b := eq_of_output hf.nodup hb' hb h1 ha
    exact ⟨h2, h3⟩
  have hout : (flexArrayI (cgpmI 1)).outputs m.array = p.cgpms.flatMap (cgpmI 0).outputs := by
    change (cgpmI 1).outputs m.array.base = _
    rw [hf.base]; rfl
  have hmem : ∀ a ∈ Dict.keys ob, a ∈ (flexArrayI (cgpmI 1)).outputs m.array := by
    intro a ha
    obtain ⟨x, hx⟩ := Dict.exists_get?_of_mem_keys ha
    obtain ⟨m', p', hf', b', hb', h1, -⟩ := (ht a x hx).2
    obtain rfl : m = m' := by have := hf.eq.symm.trans hf'.eq; injection this
    obtain rfl : p = p' := by have := hf.base.symm.trans hf'.base; injection this
    rw [hout]; exact List.mem_flatMap.2 ⟨b', hb', by change a ∈ Prim.outputs b'; simp [h1]⟩
  rw [hf.eq] at h hc
  have hreg : MixReg _ _ _ _ _ _ _ m := h
  have hne : ∀ a x, Dict.get? ob a = some x → a ≠ m.indexer := fun a x hx e =>
    (ht a x hx).1 (e ▸ hreg.x_mem)
  have hc : ∀ a x, Dict.get? ob a = some x → ((Dict.get? m.rowidToComponent r).bind fun z =>
      (some (m.array.comp (cgpmSem 1) z)).bind fun c => (cgpmTab Z 1).cell c r a) = none := by
    intro a x hx
    have := hc a x hx
    have this : (if a = m.indexer then _ else (Dict.get? m.rowidToComponent r).bind fun z =>
      (some (m.array.comp (cgpmSem 1) z)).bind fun c => (cgpmTab Z 1).cell c r a) = none := this
    rwa [if_neg (hne a x hx)] at this
  have hself : only ((flexArrayI (cgpmI 1)).outputs m.array) ob = ob := only_self hmem
  have hix : Dict.get? ob m.indexer = none := by
    rcases hx : Dict.get? ob m.indexer with _ | x
    · rfl
    · exact absurd rfl (hne _ x hx)
  rcases hr : Dict.get? m.rowidToComponent r with _ | z
  · obtain ⟨t, g', d1, d2, d3⟩ := crp_draw (p := m.rowDivide) hreg.inv.1 hf.kind hf.out
      (r := r) ((hreg.data r).trans hr) g
    have hfr : ∀ z, ∀ a x, Dict.get? ob a = some x → (cgpmTab Z 1).cell (m.array.comp (cgpmSem 1) z) r a = none :=
      fun z a x _ => hreg.fresh r z _ rfl (by rw [hr]; nofun) a
    have ho2 : only ((flexArrayI (cgpmI 1)).outputs m.array) ((m.indexer, .num (t : ℚ)) :: ob) =
        only ((flexArrayI (cgpmI 1)).outputs m.array) ob := by
      unfold only
      rw [List.filter_cons_of_neg (by simpa using hreg.x_out)]
    obtain ⟨c', hc'⟩ := comp_takes hf h0 hn ht' (.num (t : ℚ)) (hfr _) g'
    rw [hf.eq]
    refine ⟨_, _, inside_eq ((observe_drawn hr hix (z := .num (t : ℚ)) (g' := g') ?_ ho2).trans
      (RowMix.observe_accept (flexArrLaws (cgpmLaws 1)) hreg hr (by simp [Dict.get?_cons]) d2 rfl []
        (by rw [ho2, hself]; exact hc'))), d3⟩
    rw [show m.inputsZ = [] from hreg.inputs]
    exact d1
  · rw [hr] at hc
    obtain ⟨c', hc'⟩ := comp_takes hf h0 hn ht' z hc g
    rw [hf.eq]
    exact ⟨_, _, inside_eq (observe_held (flexArrLaws (cgpmLaws 1)) hreg hr rfl [] (by rw [hself]; exact hc')),
      Within.refl 1 g⟩

/-- Observing cells of a CrossCat that it does not have, with legal values, succeeds. -/
theorem crosscat_takes {Z : List Var} {x : Crosscat} (h : CC Z x) {ob : Dict Var Val}
    (hn : (Dict.keys ob).Nodup) (ho : ∀ v ∈ Dict.keys ob, v ∈ columns x)
    (ht : ∀ v ∈ x.cgpms, ∀ a y, a ∈ viewColumns v → Dict.get? ob a = some y → Takes v a y) {r : RowId}
    (hc : ∀ a y, Dict.get? ob a = some y → (cgpmTab Z 3).cell (whole x) r a = none) (i : Dict Var Val) (g : Rng) :
    ∃ c g', (cgpmI 3).observe r ob i (whole x, g) = (.ok (), (c, g')) := by
  obtain ⟨as, l', g', he⟩ := Py.each_good (m := observeOne (cgpmI 2) r ob i) (l := x.cgpms) g (by
    intro v hv g
    have hreg := h.viewReg hv
    have hin : (cgpmI 2).inputs v = [] := (cgpmTLaws Z 2).inputs v hreg
    rw [observeOne_eq, hin, only_nil, only_nil]
    by_cases he : only ((cgpmI 2).outputs v) ob = []
    · rw [if_pos he]; exact ⟨_, _, _, rfl⟩
    · rw [if_neg he]
      have hk : ∀ a y, Dict.get? (only ((cgpmI 2).outputs v) ob) a = some y →
          a ∈ (cgpmI 2).outputs v ∧ Dict.get? ob a = some y := by
        intro a y hy
        rw [get?_only] at hy
        split at hy
        · rename_i h1; exact ⟨h1, hy⟩
        · cases hy
      obtain ⟨v', g', h1, -⟩ := view_takes hreg (nodup_only _ _ hn) (fun a y hy => by
          obtain ⟨k1, k2⟩ := hk a y hy
          have hz := h.plain a (ho a (Dict.mem_keys_of_get? k2))
          refine ⟨hz, ht v hv a y ?_ k2⟩
          obtain ⟨w, hw, haw⟩ := mem_columns.1 (ho a (Dict.mem_keys_of_get? k2))
          have : w = v := eq_of_flatMap_nodup (Product.validate_nodup h.reg.2.1) hw hv (List.mem_of_mem_tail haw) k1
          rwa [← this]) (r := r) (fun a y hy => ProdTab.cell_none_iff.1 (hc a y (hk a y hy).2) v hv) (h.views v hv) g
      exact ⟨_, _, _, h1⟩)
  refine ⟨.product ⟨l'⟩, g', inside_eq (m := Product.observe (cgpmI 2) r ob i) ?_⟩
  unfold Product.observe
  rw [Py.bind_apply]
  unfold Product.each Py.onAttr
  dsimp only
  rw [he]
  rfl

/-! ## Conversely -/

theorem inside_inv {S T' α : Type} {f : T' → Node S} {m : Py (T' × Rng) α} {t : T'} {g g' : Rng} {a : α} {n : Node S}
    (h : Py.inside f m (t, g) = (.ok a, (n, g'))) : ∃ t', m (t, g) = (.ok a, (t', g')) ∧ n = f t' := by
  unfold Py.inside at h
  rcases hm : m (t, g) with ⟨e, t', g1⟩
  rw [hm] at h
  cases h
  exact ⟨t', rfl, rfl⟩

theorem product_taken {Z : List Var} {c : Product (Cgpm 0)}
    (h : (cgpmTab Z 1).Reg (.product c : Node (Cgpm 0))) {r : RowId} {ob : Dict Var Val}
    (hn : (Dict.keys ob).Nodup) {g g' : Rng} {c' : Node (Cgpm 0)}
    (he : (cgpmI 1).observe r ob [] ((.product c : Node (Cgpm 0)), g) = (.ok (), (c', g'))) {q : Prim}
    (hq : q ∈ c.cgpms) {a : Var} {x : Val} (ha : q.outputs = [a]) (hx : Dict.get? ob a = some x) :
    q.Legal x ∧ (cgpmTab Z 1).cell (.product c : Node (Cgpm 0)) r a = none := by
  obtain ⟨t', he, -⟩ := inside_inv (m := Product.observe (cgpmI 0) r ob []) he
  obtain ⟨xs, h1, -, h3⟩ := Product.observe_ok he
  have key : ∀ q ∈ c.cgpms, ∀ b, Prim.outputs q = [b] → ∀ y, Dict.get? ob b = some y →
      Prim.Legal q y ∧ r ∉ Dict.keys (Prim.data q) := by
    intro q hq b hb y hy
    rw [← h1] at hq
    obtain ⟨⟨q0, u, s'⟩, hx1, rfl⟩ := List.mem_map.1 hq
    obtain ⟨g1, g2, h4⟩ := h3 _ hx1
    dsimp only at h4 hb
    have hq' : q0 ∈ c.cgpms := by rw [← h1]; exact List.mem_map.2 ⟨_, hx1, rfl⟩
    have hin : (cgpmI 0).inputs q0 = [] := (cgpmTLaws Z 0).inputs q0 (h.1 q0 hq')
    rw [observeOne_eq, hin, only_nil, only_nil] at h4
    have ho : only ((cgpmI 0).outputs q0) ob = [(b, y)] := by
      change only (Prim.outputs q0) ob = _
      rw [hb]; exact only_single hn hy
    rw [ho, if_neg (by simp)] at h4
    have h4 : ((Prim.observe r [(b, y)] [] q0).1, (Prim.observe r [(b, y)] [] q0).2, g1) = (.ok (), (s', g2)) := h4
    rcases Prim.observe_cases hb r [(b, y)] [] with ⟨e, h5⟩ | ⟨v, h5, -, h6, h7, -⟩
    · rw [h5] at h4; cases h4
    · cases h5; exact ⟨h7, h6⟩
  refine ⟨(key q hq a ha x hx).1, ProdTab.cell_none_iff.2 fun b hb => ?_⟩
  change (if a ∈ Prim.outputs b then Dict.get? (Prim.data b) r else none) = none
  by_cases hm : a ∈ Prim.outputs b
  · rw [if_pos hm, Dict.get?_eq_none_iff]
    obtain ⟨a', ha'⟩ := (show (b : Prim).Inv from (h.1 b hb).1.1).out
    have : a' = a := by rw [ha'] at hm; exact (List.mem_singleton.1 hm).symm
    subst this
    exact (key b hb a' ha' x hx).2
  · rw [if_neg hm]

theorem comp_taken {Z : List Var} {m : FlexMix (Cgpm 1)} {p : Product (Cgpm 0)} {v : View} (hf : Flat v m p)
    (h : (cgpmTab Z 2).Reg v) {ob : Dict Var Val} (hn : (Dict.keys ob).Nodup) (z : Val) {r : RowId} {g g' : Rng}
    {c' : Cgpm 1} (he : (cgpmI 1).observe r ob [] (m.array.comp (cgpmSem 1) z, g) = (.ok (), (c', g')))
    {a : Var} {x : Val} (ha : a ∈ p.cgpms.flatMap (cgpmI 0).outputs) (hx : Dict.get? ob a = some x)
    (hk : ∀ b ∈ p.cgpms, a ∈ Prim.outputs b → Prim.kind b ≠ .crp) :
    Takes v a x ∧ (cgpmTab Z 1).cell (m.array.comp (cgpmSem 1) z) r a = none := by
  have h0 := h
  rw [hf.eq] at h
  have hreg : MixReg _ _ _ _ _ _ _ m := h
  have hcr := (hreg.comp z (m.array.comp (cgpmSem 1) z) rfl).1
  have hcopy := (hreg.inv.2.1.2.1 z).2.2
  rw [hf.base] at hcopy
  obtain ⟨b, hb, hab⟩ := List.mem_flatMap.1 ha
  obtain ⟨a', ha'⟩ := hf.single b hb
  have hab : a ∈ (cgpmI 0).outputs b := hab
  rw [ha'] at hab
  obtain rfl := List.mem_singleton.1 hab
  have hkb := hk b hb (by change a ∈ (cgpmI 0).outputs b; rw [ha']; simp)
  revert hcopy hcr he
  generalize m.array.comp (cgpmSem 1) z = c
  intro he hcr hcopy
  rcases c with c | c | c | c | c | c
  · cases hcopy
  · have hcopy' : Shape.product (c.cgpms.map Prim.shape) = Shape.product (p.cgpms.map Prim.shape) := hcopy
    injection hcopy' with hcopy'
    have : Prim.shape b ∈ c.cgpms.map Prim.shape := by rw [hcopy']; exact List.mem_map.2 ⟨b, hb, rfl⟩
    obtain ⟨q, hq, hs⟩ := List.mem_map.1 this
    unfold Prim.shape at hs
    injection hs with e1 e2 e3
    obtain ⟨k1, k2⟩ := product_taken hcr hn he hq (e1.trans ha') hx
    exact ⟨⟨m, p, hf, b, hb, ha', hkb, (legal_of_kind e2.symm e3.symm hkb).2 k1⟩, k2⟩
  · exact hcr.elim
  · exact hcr.elim
  · cases hcopy
  · cases hcopy

theorem view_taken {Z : List Var} {v : View} (h : (cgpmTab Z 2).Reg v) (hv : IsView v) {ob : Dict Var Val}
    (hn : (Dict.keys ob).Nodup) (hz : ∀ a ∈ Dict.keys ob, a ∉ Z) {r : RowId} {g g' : Rng} {v' : View}
    (he : (cgpmI 2).observe r ob [] (v, g) = (.ok (), (v', g'))) {a : Var} {x : Val}
    (ha : a ∈ viewColumns v) (hx : Dict.get? ob a = some x) :
    Takes v a x ∧ (cgpmTab Z 2).cell v r a = none := by
  obtain ⟨m, p, hf⟩ := flat_of_reg h hv
  have h0 := h
  have hz' := hz a (Dict.mem_keys_of_get? hx)
  have he : (cgpmI 2).observe r ob [] ((.flexMix m : Node (Cgpm 1)), g) = (.ok (), (v', g')) := by
    rw [← hf.eq]; exact he
  rw [hf.eq] at h ha
  have hreg : MixReg _ _ _ _ _ _ _ m := h
  obtain ⟨m', he, -⟩ := inside_inv he
  have hout : (flexArrayI (cgpmI 1)).outputs m.array = p.cgpms.flatMap (cgpmI 0).outputs := by
    change (cgpmI 1).outputs m.array.base = _
    rw [hf.base]; rfl
  have ha : a ∈ p.cgpms.flatMap (cgpmI 0).outputs := by
    rw [← hout]
    have : viewColumns (.flexMix m : Node (Cgpm 1)) = (flexArrayI (cgpmI 1)).outputs m.array := by
      change (m.rowDivide.outputs ++ (flexArrayI (cgpmI 1)).outputs m.array).tail = _
      rw [hf.out]; rfl
    rwa [← this]
  obtain ⟨z, c, c', g1, -, hc, h2, -, h3⟩ := RowMix.observe_ok (flexArrLaws (cgpmLaws 1)) hreg
    (fun z _ _ => ⟨_, rfl⟩) (fun y hy b hb => absurd hy (hz y (Dict.mem_keys_of_get? hb))) he
  have hc : some (m.array.comp (cgpmSem 1) z) = some c := hc
  injection hc with hc
  subst hc
  have hx' : Dict.get? (only ((flexArrayI (cgpmI 1)).outputs m.array) ob) a = some x := by
    rw [get?_only, if_pos (by rw [hout]; exact ha)]; exact hx
  obtain ⟨k1, k2⟩ := comp_taken hf h0 (nodup_only _ _ hn) z h2 ha hx' (fun b hb hab hk => hz' (by
    obtain ⟨hb1, -, hb3⟩ := flexMix_base (cgpmLaws 1) (cgpmTLaws Z 1) (m := m) hreg
    rw [hf.base] at hb1
    exact (show (primTab Z).Reg b from hb1.1 b hb).2.2.1 hk a hab))
  refine ⟨k1, ?_⟩
  have hne : a ≠ m.indexer := fun e => hz' (e ▸ hreg.x_mem)
  rw [hf.eq]
  change (if a = m.indexer then _ else (Dict.get? m.rowidToComponent r).bind fun z =>
    (some (m.array.comp (cgpmSem 1) z)).bind fun c => (cgpmTab Z 1).cell c r a) = none
  rw [if_neg hne]
  rcases h3 with ⟨h3, -⟩ | ⟨h3, -⟩
  · rw [h3]; exact k2
  · rw [h3]; rfl

theorem crosscat_taken {Z : List Var} {x : Crosscat} (h : CC Z x) {ob : Dict Var Val}
    (hn : (Dict.keys ob).Nodup) (ho : ∀ v ∈ Dict.keys ob, v ∈ columns x) {r : RowId} {i : Dict Var Val} {g g' : Rng}
    {c : Cgpm 3} (he : (cgpmI 3).observe r ob i (whole x, g) = (.ok (), (c, g'))) {a : Var} {y : Val}
    (hx : Dict.get? ob a = some y) :
    (∃ v ∈ x.cgpms, a ∈ viewColumns v ∧ Takes v a y) ∧ (cgpmTab Z 3).cell (whole x) r a = none := by
  obtain ⟨t', he, -⟩ := inside_inv (m := Product.observe (cgpmI 2) r ob i) he
  obtain ⟨xs, h1, -, h3⟩ := Product.observe_ok he
  obtain ⟨v, hv, hav⟩ := mem_columns.1 (ho a (Dict.mem_keys_of_get? hx))
  have hreg := h.viewReg hv
  have hv0 : v ∈ xs.map (·.1) := by rw [h1]; exact hv
  obtain ⟨⟨v0, u, s'⟩, hx1, e⟩ := List.mem_map.1 hv0
  dsimp only at e
  subst e
  obtain ⟨g1, g2, h4⟩ := h3 _ hx1
  dsimp only at h4
  have hin : (cgpmI 2).inputs v0 = [] := (cgpmTLaws Z 2).inputs v0 hreg
  have hao : a ∈ (cgpmI 2).outputs v0 := List.mem_of_mem_tail hav
  have hx' : Dict.get? (only ((cgpmI 2).outputs v0) ob) a = some y := by
    rw [get?_only, if_pos hao]; exact hx
  rw [observeOne_eq, hin, only_nil, only_nil, if_neg (by intro e; rw [e] at hx'; cases hx')] at h4
  obtain ⟨k1, k2⟩ := view_taken hreg (h.views v0 hv) (nodup_only _ _ hn) (fun b hb => h.plain b (ho b (by
    obtain ⟨y', hy'⟩ := Dict.exists_get?_of_mem_keys hb
    rw [get?_only] at hy'
    split at hy'
    · exact Dict.mem_keys_of_get? hy'
    · cases hy'))) h4 hav hx'
  refine ⟨⟨v0, hv, hav, k1⟩, ProdTab.cell_none_iff.2 fun w hw => ?_⟩
  by_cases hwa : a ∈ (cgpmI 2).outputs w
  · have : w = v0 := eq_of_flatMap_nodup (Product.validate_nodup h.reg.2.1) hw hv hwa hao
    rw [this]; exact k2
  · exact (cgpmTLaws Z 2).cell_out w r a (h.viewReg hw) hwa

/-! ## In terms of what the column accepts -/

theorem column_kind {Z : List Var} {x : Crosscat} (h : CC Z x) {o : Var} (ho : o ∈ columns x) {p : Prim}
    (hp : OfColumn x o p) : p.kind ≠ .crp := fun hk =>
  h.plain o ho ((reg_prims 3 _ h.reg p hp.1).2.2 hk o (by rw [hp.2]; simp))

theorem takes_column {Z : List Var} {x : Crosscat} (h : CC Z x) {v : View} (hv : v ∈ x.cgpms) {a : Var} {y : Val}
    (ha : a ∈ viewColumns v) : Takes v a y ↔ ∀ p, OfColumn x a p → Accepts p y := by
  obtain ⟨m, p, hf⟩ := flat_of_reg (h.viewReg hv) (h.views v hv)
  have hac : a ∈ columns x := mem_columns.2 ⟨v, hv, ha⟩
  have hcols : viewColumns v = p.cgpms.flatMap (cgpmI 0).outputs := by
    unfold viewColumns; rw [hf.outputs]; rfl
  have hin : ∀ b ∈ p.cgpms, Prim.outputs b = [a] → OfColumn x a b := by
    intro b hb ho
    refine ⟨List.mem_flatMap.2 ⟨v, hv, ?_⟩, ho⟩
    rw [hf.eq]
    refine List.mem_cons_of_mem _ (List.mem_append.2 (.inr ?_))
    rw [hf.base]
    exact List.mem_flatMap.2 ⟨b, hb, List.mem_singleton.2 rfl⟩
  have hinv : ∀ q, OfColumn x a q → q.Inv := fun q hq => (reg_prims 3 _ h.reg q hq.1).1.1
  constructor
  · rintro ⟨m', p', hf', b, hb, h1, h2, h3⟩ q hq
    obtain rfl : m = m' := by have := hf.eq.symm.trans hf'.eq; injection this
    obtain rfl : p = p' := by have := hf.base.symm.trans hf'.base; injection this
    obtain ⟨c, c1, c2, -, c3⟩ := column_prims h hac
    have hb' := hin b hb h1
    obtain ⟨e1, e2⟩ := c3 q hq.1 hq.2
    obtain ⟨e3, e4⟩ := c3 b hb'.1 hb'.2
    exact (Prim.legal_iff (hinv q hq) y).1 ((legal_of_kind (e1.trans e3.symm) (e2.trans e4.symm)
      (column_kind h hac hq)).2 h3)
  · intro hall
    rw [hcols] at ha
    obtain ⟨b, hb, hob⟩ := List.mem_flatMap.1 ha
    have hb' : Prim.outputs b = [a] := by
      obtain ⟨a', ha'⟩ := hf.single b hb
      rw [ha', List.mem_singleton] at hob
      rw [hob]; exact ha'
    have := hin b hb hb'
    exact ⟨m, p, hf, b, hb, hb', column_kind h hac this, (Prim.legal_iff (hinv b this) y).2 (hall b this)⟩

/-- When a CrossCat accepts an observation. -/
theorem crosscat_accepts {Z : List Var} {x : Crosscat} (h : CC Z x) {ob : Dict Var Val}
    (hn : (Dict.keys ob).Nodup) (ho : ∀ v ∈ Dict.keys ob, v ∈ columns x) (r : RowId) (i : Dict Var Val) (g : Rng) :
    (∃ c g', (cgpmI 3).observe r ob i (whole x, g) = (.ok (), (c, g'))) ↔
      ∀ v y, Dict.get? ob v = some y → heldCell (cgpmI 3) (whole x) g r v = none ∧
        ∀ p, OfColumn x v p → Accepts p y := by
  have K := cgpmTLaws Z 3
  constructor
  · rintro ⟨c, g', he⟩ v y hy
    obtain ⟨⟨w, hw, hvw, h1⟩, h2⟩ := crosscat_taken h hn ho he hy
    exact ⟨(heldCell_eq K h.reg _ _ _).trans h2, (takes_column h hw hvw).1 h1⟩
  · intro hall
    refine crosscat_takes h hn ho (fun v hv a y ha hy => (takes_column h hv ha).2 (hall a y hy).2)
      (fun a y hy => ?_) i g
    rw [← heldCell_eq K h.reg (g := g)]
    exact (hall a y hy).1

end Cgpm2.Views

namespace Cgpm2.Life
open Spec Views Ensemble

variable {outputs : List Var} {types : List Dist} {T : Ledger}

theorem value_iff {d : Dist} {p : Prim} (hd : OfType d p) (hk : p.kind ≠ .crp) (y : Val) : ValueOf d y ↔ Accepts p y := by
  cases p with
  | crp c => exact absurd rfl hk
  | normalUC c => exact hd.elim
  | categorical c =>
    obtain ⟨h1, h2⟩ := hd
    cases y <;> simp [ValueOf, Accepts, h1, h2]
  | bernoulli c =>
    have h1 : d.name = "bernoulli" := hd
    cases y <;> simp [ValueOf, Accepts, h1]
  | normal c =>
    have h1 : d.name = "normal" := hd
    cases y <;> simp [ValueOf, Accepts, h1]
  | poisson c =>
    have h1 : d.name = "poisson" := hd
    cases y <;> simp [ValueOf, Accepts, h1]

theorem exists_type (hl : outputs.length = types.length) {v : Var} (hv : v ∈ outputs) :
    ∃ d, (v, d) ∈ outputs.zip types := by
  obtain ⟨i, hi, rfl⟩ := List.getElem_of_mem hv
  exact ⟨types[i], List.mem_iff_getElem.2 ⟨i, by simp [← hl, hi], List.getElem_zip⟩⟩

theorem chain_accepts (hl : outputs.length = types.length) {c : Cgpm 3 × Rng} (h : Chain outputs types T c)
    {ob : Dict Var Val} (hn : (Dict.keys ob).Nodup) (ho : ∀ v ∈ Dict.keys ob, v ∈ outputs) (r : RowId) (i : Dict Var Val) :
    (∃ c', (cgpmI 3).observe r ob i c = (.ok (), c')) ↔
      ∀ v y, Dict.get? ob v = some y → T.cells r v = none ∧ ∀ d, (v, d) ∈ outputs.zip types → ValueOf d y := by
  obtain ⟨-, -, -, -, -, hd, -⟩ := chain_keeps h
  obtain ⟨x, τ, e, hx, hτ⟩ := h
  obtain ⟨Z, hcc⟩ := hx.cc
  obtain ⟨c, g⟩ := c
  dsimp only at e
  subst e
  have hk := chain_keeps (c := (whole x, g)) ⟨x, τ, rfl, hx, hτ⟩
  obtain ⟨x', g', e, -, -, hd, -⟩ := hk
  cases e
  have key := crosscat_accepts hcc hn (fun v hv => hx.cols.mem_iff.2 (ho v hv)) r i g
  rw [show (∃ c', (cgpmI 3).observe r ob i (whole x, g) = (.ok (), c')) ↔
    ∃ c g', (cgpmI 3).observe r ob i (whole x, g) = (.ok (), (c, g')) from
      ⟨fun ⟨c', h⟩ => ⟨c'.1, c'.2, h⟩, fun ⟨c, g', h⟩ => ⟨(c, g'), h⟩⟩, key]
  refine forall_congr' fun v => forall_congr' fun y => ?_
  constructor
  · intro h1 hy
    obtain ⟨h2, h3⟩ := h1 hy
    have hv := ho v (Dict.mem_keys_of_get? hy)
    refine ⟨by rw [← hx.cells g r v hv]; exact h2, fun d hvd => ?_⟩
    obtain ⟨⟨p, hp⟩, hall⟩ := hd (v, d) hvd
    exact (value_iff (hall p hp) (column_kind hcc (hx.cols.mem_iff.2 hv) hp) y).2 (h3 p hp)
  · intro h1 hy
    obtain ⟨h2, h3⟩ := h1 hy
    have hv := ho v (Dict.mem_keys_of_get? hy)
    refine ⟨by rw [hx.cells g r v hv]; exact h2, fun p hp => ?_⟩
    obtain ⟨d, hvd⟩ := exists_type hl hv
    exact (value_iff ((hd (v, d) hvd).2 p hp) (column_kind hcc (hx.cols.mem_iff.2 hv) hp) y).1 (h3 d hvd)

theorem ordinary_iff {l l' : List Var} (h : ∀ v, v ∈ l ↔ v ∈ l') (t : Step) : t.Ordinary l ↔ t.Ordinary l' := by
  cases t <;> simp only [Step.Ordinary, h]

theorem chain_infers (hne : outputs ≠ []) (hl : outputs.length = types.length) {c : Cgpm 3 × Rng}
    (h : Chain outputs types T c)
    (hm : ∀ od ∈ outputs.zip types, od.2.name = "bernoulli" ∨ od.2.name = "poisson" → ∀ r, T.cells r od.1 ≠ some .nan)
    (hr : ¬ T.rows none) (ord : Orders) (b : Bool) (clock : Nat → ℝ) {steps : List Step}
    (ho : ∀ t ∈ steps, t.Ordinary outputs) (hs : ∀ t ∈ steps, t.Stays) :
    ∃ x s w, c.1 = whole x ∧ Gibbs.init ord x b (.ok ()) c.2 = (.ok s, c.2) ∧ Returns ord steps ⟨(s, c.2), clock⟩ w := by
  have hk := chain_keeps h
  obtain ⟨x, τ, e, hx, hτ⟩ := h
  obtain ⟨Z, hcc⟩ := hx.cc
  obtain ⟨c, g⟩ := c
  dsimp only at e
  subst e
  obtain ⟨x', g', e, -, -, hd, -⟩ := hk
  cases e
  have hmem : ∀ v, v ∈ outputs ↔ v ∈ columns x := fun v => hx.cols.mem_iff.symm
  have hcol : Collapsed x := by
    intro o ho p hp hkind
    obtain ⟨d, hod⟩ := exists_type hl ((hmem o).2 ho)
    have := (hd (o, d) hod).2 p hp
    cases p <;> first | cases hkind; done | exact this
  have hready : Ready x := by
    refine ⟨fun o ho p hp hkind g r => ?_, fun g v => ?_⟩
    · obtain ⟨d, hod⟩ := exists_type hl ((hmem o).2 ho)
      have ht := (hd (o, d) hod).2 p hp
      rw [hx.cells g r o ((hmem o).2 ho)]
      refine hm (o, d) hod ?_ r
      cases p <;> first | (rcases hkind with hkind | hkind <;> cases hkind; done) | exact .inl ht | exact .inr ht
    · by_contra hn
      exact hr (hx.rows g none v hn)
  have hne' : columns x ≠ [] := fun e => hne (by have := hx.cols; rw [e] at this; exact this.symm.eq_nil)
  obtain ⟨s, h1, h2, h3⟩ := init_total (c := b) ⟨⟨Z, hcc⟩, hcol⟩ hne' ord g
  obtain ⟨w, h4⟩ := steps_go ⟨⟨Z, hcc⟩, hready, hcol, rowsAmong_keys hcc⟩ hne' ord
    (fun t ht => ⟨(ordinary_iff hmem t).1 (ho t ht), hs t ht⟩) (w := ⟨(s, g), clock⟩) h3
  exact ⟨x, s, w, rfl, h1, h4⟩

end Cgpm2.Life
