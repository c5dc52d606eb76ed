import Verif.Lemmas.ViewRuns
import Verif.Lemmas.ExportState
import Verif.Spec.Draws

/-!
# Moves of columns succeed (helpers)
-/

namespace Cgpm2.Views
open Spec Cpp

/-! ## Random numbers -/

/-- `g'` is what is left of the stream `g` after some draws. -/
def Later (g g' : Rng) : Prop := ∃ k : Nat, ∀ n, g' n = g (n + k)

theorem Later.refl (g : Rng) : Later g g := ⟨0, fun _ => rfl⟩
theorem Later.trans {g g' g'' : Rng} (h : Later g g') (h' : Later g' g'') : Later g g'' := by
  obtain ⟨k, h⟩ := h
  obtain ⟨k', h'⟩ := h'
  exact ⟨k' + k, fun n => by rw [h', h, Nat.add_assoc]⟩
theorem Later.next (g : Rng) : Later g g.next.2 := ⟨1, fun _ => rfl⟩

/-- At most `k` numbers of `g` were drawn. -/
def Within (k : Nat) (g g' : Rng) : Prop := ∃ j ≤ k, ∀ n, g' n = g (n + j)

theorem Within.later {k : Nat} {g g' : Rng} (h : Within k g g') : Later g g' := by
  obtain ⟨j, -, h⟩ := h
  exact ⟨j, h⟩
theorem Within.refl (k : Nat) (g : Rng) : Within k g g := ⟨0, Nat.zero_le k, fun _ => rfl⟩
theorem Within.next (g : Rng) : Within 1 g g.next.2 := ⟨1, le_rfl, fun _ => rfl⟩
theorem Within.mono {k k' : Nat} {g g' : Rng} (h : Within k g g') (hk : k ≤ k') : Within k' g g' := by
  obtain ⟨j, hj, h⟩ := h
  exact ⟨j, hj.trans hk, h⟩
theorem Within.trans {k k' : Nat} {g g' g'' : Rng} (h : Within k g g') (h' : Within k' g' g'') :
    Within (k + k') g g'' := by
  obtain ⟨j, hj, h⟩ := h
  obtain ⟨j', hj', h'⟩ := h'
  exact ⟨j + j', by omega, fun n => by rw [h', h]; congr 1; omega⟩

theorem pflip_within (ps : List ℝ) (g : Rng) : Within 1 g (pflipIdx ps g).2 := by
  unfold pflipIdx
  split
  · exact Within.refl 1 g
  · exact Within.refl 1 g
  · split_ifs
    · exact Within.next g
    · exact Within.refl 1 g

theorem logPflip_within (l : List Fl) (g : Rng) : Within 1 g (logPflipIdx l g).2 := by
  unfold logPflipIdx
  split
  · exact Within.refl 1 g
  · exact Within.refl 1 g
  · split_ifs
    · exact pflip_within _ _
    · exact Within.refl 1 g

theorem crp_draw {p : Prim} (hg : p.Good) (hk : p.kind = .crp) {o : Var} (ho : p.outputs = [o])
    {r : RowId} (hr : Dict.get? p.data r = none) (g : Rng) : ∃ (t : Int) (g' : Rng),
      p.simulate r [o] [] [] none g = (.ok (.one [(o, .num (t : ℚ))]), g') ∧ p.Legal (.num (t : ℚ)) ∧ Within 1 g g' := by
  cases p with
  | crp c =>
    have hI : c.Inv := hg.1
    have hr' : r ∉ Dict.keys c.data := by
      rw [← Dict.get?_eq_none_iff] 
      have hr : Dict.get? (c.data.map fun rx => (rx.1, Val.num (rx.2 : ℚ))) r = none := hr
      rw [Dict.get?_eq_none_iff] at hr ⊢
      simpa [Dict.keys, Function.comp_def] using hr
    obtain ⟨t, g', h1, h2⟩ := Crp.simulate1_ok hI hg.2 ho hr' g
    refine ⟨t, g', ?_, ⟨_, rfl, by rwa [truncate_intCast]⟩, ?_⟩
    · change simulateMany (Crp.simulate1 _ _ _ _ _) none g = _
      rw [simulateMany_none, h1]
    · rw [Crp.simulate1_unheld hI hg.2 ho hr'] at h1
      have := logPflip_within c.logWeights g
      rcases hp : logPflipIdx c.logWeights g with ⟨_ | _, g1⟩
      · rw [hp] at h1; cases h1
      · rw [hp] at h1 this; cases h1; exact this
  | _ => cases hk

/-! ## Observing one cell of a view -/

theorem legal_of_kind {p q : Prim} (hk : p.kind = q.kind) (hc : p.card = q.card) (hn : p.kind ≠ .crp) {x : Val} :
    p.Legal x ↔ q.Legal x := by
  cases p <;> cases q <;> first | exact absurd rfl hn | exact Iff.rfl | (cases hk; done) | skip
  rename_i a b
  have hc : a.k = b.k := hc
  change Categorical.Legal a.k x ↔ Categorical.Legal b.k x
  rw [hc]

theorem each_still {S T α : Type} {m : Py (S × T) α} {l : List S} (g : T)
    (h : ∀ s ∈ l, ∃ a s', m (s, g) = (.ok a, (s', g))) :
    ∃ as l', Py.each m (l, g) = (.ok as, (l', g)) := by
  induction l with
  | nil => exact ⟨[], [], rfl⟩
  | cons s l ih =>
    obtain ⟨a, s', h1⟩ := h s (by simp)
    obtain ⟨as, l', h2⟩ := ih fun s hs => h s (by simp [hs])
    refine ⟨a :: as, s' :: l', ?_⟩
    rw [Py.each_cons, h1]
    dsimp only
    rw [h2]

theorem product_observe {Z : List Var} {c : Product (Cgpm 0)}
    (h : (cgpmTab Z 1).Reg (.product c : Node (Cgpm 0))) {o : Var} {r : RowId} {x : Val}
    (hc : (cgpmTab Z 1).cell (.product c : Node (Cgpm 0)) r o = none)
    (hl : ∀ q ∈ c.cgpms, Prim.outputs q = [o] → Prim.Legal q x) {ob : Dict Var Val}
    (hob : ∀ q ∈ c.cgpms, only (Prim.outputs q) ob = if Prim.outputs q = [o] then [(o, x)] else []) (g : Rng) :
    ∃ c', (cgpmI 1).observe r ob [] ((.product c : Node (Cgpm 0)), g) = (.ok (), (c', g)) := by
  obtain ⟨as, l', he⟩ := each_still (m := observeOne (cgpmI 0) r ob []) (l := c.cgpms) g (by
    intro q hq
    have hin : (cgpmI 0).inputs q = [] := (cgpmTLaws Z 0).inputs q (h.1 q hq)
    rw [observeOne_eq, hin, only_nil, only_nil]
    rw [show only ((cgpmI 0).outputs q) ob = _ from hob q hq]
    by_cases hqo : Prim.outputs q = [o]
    · rw [if_pos hqo, if_neg (by simp)]
      have hr : r ∉ Dict.keys (Prim.data q) := by
        rw [← Dict.get?_eq_none_iff]
        have : (primTab Z).cell q r o = none := ProdTab.cell_none_iff.1 hc q hq
        simpa [primTab, hqo] using this
      refine ⟨(), Prim.add q r x, ?_⟩
      have := Prim.observe_ok hqo hr (hl q hq hqo)
      change ((Prim.observe r [(o, x)] [] q).1, (Prim.observe r [(o, x)] [] q).2, g) = _
      rw [this]
      rfl
    · rw [if_neg hqo, if_pos rfl]
      exact ⟨_, _, rfl⟩)
  refine ⟨.product ⟨l'⟩, inside_eq (m := Product.observe (cgpmI 0) r ob []) ?_⟩
  unfold Product.observe
  rw [Py.bind_apply]
  unfold Product.each Py.onAttr
  dsimp only
  rw [he]
  rfl

theorem legal_of_mem {p : Prim} (h : p.Inv) (hk : p.kind ≠ .crp) {r : RowId} {x : Val} (hx : (r, x) ∈ p.data) :
    p.Legal x := by
  cases p with
  | crp c => exact absurd rfl hk
  | categorical c => exact h.legal x (List.mem_map.2 ⟨_, hx, rfl⟩)
  | bernoulli c => exact h.legal x (List.mem_map.2 ⟨_, hx, rfl⟩)
  | normal c => trivial
  | normalUC c => trivial
  | poisson c => exact h.legal x (List.mem_map.2 ⟨_, hx, rfl⟩)

/-- The view has the column `o`, and the value `x` is legal for it. -/
def Takes (v : View) (o : Var) (x : Val) : Prop :=
  ∃ m p, Flat v m p ∧ ∃ b ∈ p.cgpms, Prim.outputs b = [o] ∧ Prim.kind b ≠ .crp ∧ Prim.Legal b x

theorem Takes.shape {Z : List Var} {v v' : View} {o : Var} {x : Val} (h : Takes v o x)
    (hr : (cgpmTab Z 2).Reg v') (hs : (cgpmSem 2).shape v' = (cgpmSem 2).shape v) : Takes v' o x := by
  obtain ⟨m, p, hf, b, hb, h1, h2, h3⟩ := h
  obtain ⟨m', p', hf'⟩ := flat_of_reg hr (isView_of_shape hs hr hf.view)
  refine ⟨m', p', hf', ?_⟩
  rw [hf.eq, hf'.eq] at hs
  have hs : Shape.mix m'.rowDivide.shape ((cgpmSem 1).shape m'.array.base) =
    Shape.mix m.rowDivide.shape ((cgpmSem 1).shape m.array.base) := hs
  injection hs with _ hs
  rw [hf.base, hf'.base] at hs
  obtain ⟨b', hb', he⟩ := shape_prims hs.symm (q := b) (List.mem_flatMap.2 ⟨b, hb, List.mem_singleton.2 rfl⟩)
  unfold Prim.shape at he
  injection he with e1 e2 e3
  refine ⟨b', hb', e1.trans h1, e2 ▸ h2, (legal_of_kind e2 e3 (e2 ▸ h2)).2 h3⟩

theorem observe_drawn {A : Type} {AI : Iface A} {m : RowMix A} {r : RowId} {o i : Dict Var Val} {z : Val}
    {g g' : Rng} (h1 : Dict.get? m.rowidToComponent r = none) (h2 : Dict.get? o m.indexer = none)
    (hs : m.rowDivide.simulate r [m.indexer] (getIntersection m.inputsZ i) [] none g =
      (.ok (.one [(m.indexer, z)]), g'))
    (hx : getIntersection (m.outputsX AI) ((m.indexer, z) :: o) = getIntersection (m.outputsX AI) o) :
    RowMix.observe AI r o i (m, g) = RowMix.observe AI r ((m.indexer, z) :: o) i (m, g') := by
  unfold RowMix.observe
  rw [Py.get_bind, Py.get_bind]
  dsimp only
  simp only [h1, h2, Dict.get?_cons, if_pos, hx, Py.bind_apply, Py.onSnd, hs, RowMix.oneSample, Py.lift_apply, Py.pure_apply]

theorem observe_held {A S : Type} {AI : Iface A} {I : Iface S} {MA : Sem A} {M : Sem S} {R : Arr A S}
    {X : Prim → Nat → Prop} {Z : List Var} {T : Tab S} (LR : ArrLaws AI I MA M R) {m : RowMix A}
    (h : MixReg AI I MA X R Z T m) {r : RowId} {z : Val} (hn : Dict.get? m.rowidToComponent r = some z)
    {o : Dict Var Val} {c c' : S} (hc : R.get m.array z = some c) {g g' : Rng} (i : Dict Var Val)
    (hoc : I.observe r (only (AI.outputs m.array) o) [] (c, g) = (.ok (), (c', g'))) :
    RowMix.observe AI r o i (m, g) = (.ok (), ({ m with
      array := R.setIdx (R.put m.array z c') (Dict.set (R.idx m.array) r z) }, g')) := by
  unfold RowMix.observe
  rw [Py.get_bind]
  dsimp only
  rw [h.inputsX, getIntersection_eq, getIntersection_eq, only_nil, hn]
  dsimp only
  rw [Py.pure_bind', merged_single, onArray_eq]
  rw [show m.outputsX AI = AI.outputs m.array from rfl, ← h.x_eq,
    LR.observe _ _ _ _ _ _ h.inv.2.1 hc, hoc]

theorem comp_observe {Z : List Var} {m : FlexMix (Cgpm 1)} {p : Product (Cgpm 0)} {v : View} (hf : Flat v m p)
    (h : (cgpmTab Z 2).Reg v) {o : Var} {x : Val} {b : Prim} (hb : b ∈ p.cgpms) (ho : b.outputs = [o])
    (hk : b.kind ≠ .crp) (hl : b.Legal x) (z : Val) {r : RowId}
    (hc : (cgpmTab Z 1).cell (m.array.comp (cgpmSem 1) z) r o = none) {ob : Dict Var Val}
    (hob : ∀ a, only [a] ob = if a = o then [(o, x)] else []) (g : Rng) :
    ∃ c', (cgpmI 1).observe r ob [] (m.array.comp (cgpmSem 1) z, g) = (.ok (), (c', g)) := by
  rw [hf.eq] at h
  have hreg : MixReg _ _ _ _ _ _ _ m := h
  have hcr := (hreg.comp z (m.array.comp (cgpmSem 1) z) rfl).1
  have hcopy := (hreg.inv.2.1.2.1 z).2.2
  rw [hf.base] at hcopy
  revert hcopy hcr hc
  generalize m.array.comp (cgpmSem 1) z = c
  intro hc hcr hcopy
  rcases c with c | c | c | c | c | c
  · cases hcopy
  · refine product_observe (x := x) hcr hc (fun q hq hqo => ?_) (fun q hq => ?_) g
    · obtain ⟨b', hb', he⟩ := shape_prims hcopy (q := q) (List.mem_flatMap.2 ⟨q, hq, List.mem_singleton.2 rfl⟩)
      unfold Prim.shape at he
      injection he with e1 e2 e3
      have : b' = b := eq_of_output hf.nodup hb' hb (e1.trans hqo) ho
      subst this
      exact (legal_of_kind e2 e3 hk).1 hl
    · obtain ⟨a, ha⟩ := (show (q : Prim).Inv from (hcr.1 q hq).1.1).out
      rw [ha, hob]
      simp
  · exact hcr.elim
  · exact hcr.elim
  · cases hcopy
  · cases hcopy

theorem only_cell (a o : Var) (x : Val) : only [a] [(o, x)] = if a = o then [(o, x)] else [] := by
  by_cases h : a = o
  · subst h; simp [only]
  · simp [only, h, Ne.symm h]

/-- Observing one cell of a view succeeds. -/
theorem view_observe {Z : List Var} {v : View} (h : (cgpmTab Z 2).Reg v) {o : Var} {x : Val}
    (ht : Takes v o x) (hz : o ∉ Z) {r : RowId} (hc : (cgpmTab Z 2).cell v r o = none) (g : Rng) :
    ∃ v' g', (cgpmI 2).observe r [(o, x)] [] (v, g) = (.ok (), (v', g')) ∧ Within 1 g g' := by
  obtain ⟨m, p, hf, b, hb, h1, h2, h3⟩ := ht
  have h0 := h
  rw [hf.eq] at h hc
  have hreg : MixReg _ _ _ _ _ _ _ m := h
  have hne : o ≠ m.indexer := fun e => hz (e ▸ hreg.x_mem)
  have hc : (if o = m.indexer then _ else (Dict.get? m.rowidToComponent r).bind fun z =>
    (some (m.array.comp (cgpmSem 1) z)).bind fun c => (cgpmTab Z 1).cell c r o) = none := hc
  rw [if_neg hne] at hc
  have hout : (flexArrayI (cgpmI 1)).outputs m.array = p.cgpms.flatMap (cgpmI 0).outputs := by
    change (cgpmI 1).outputs m.array.base = _
    rw [hf.base]; rfl
  have hmem : o ∈ (flexArrayI (cgpmI 1)).outputs m.array := by
    rw [hout]; exact List.mem_flatMap.2 ⟨b, hb, by change o ∈ b.outputs; simp [h1]⟩
  have hob : ∀ a, only [a] (only ((flexArrayI (cgpmI 1)).outputs m.array) [(o, x)]) =
      if a = o then [(o, x)] else [] := by
    intro a
    rw [only_self (l := (flexArrayI (cgpmI 1)).outputs m.array) (by simpa [Dict.keys] using hmem), only_cell]
  rcases hr : Dict.get? m.rowidToComponent r with _ | z
  · obtain ⟨t, g', d1, d2, d3⟩ := crp_draw (p := m.rowDivide) hreg.inv.1 hf.kind hf.out
      (r := r) ((hreg.data r).trans hr) g
    have hfr : ∀ z, (cgpmTab Z 1).cell (m.array.comp (cgpmSem 1) z) r o = none := fun z =>
      hreg.fresh r z _ rfl (by rw [hr]; nofun) o
    have ho2 : only ((flexArrayI (cgpmI 1)).outputs m.array) ((m.indexer, .num (t : ℚ)) :: [(o, x)]) =
        only ((flexArrayI (cgpmI 1)).outputs m.array) [(o, x)] := by
      simp [only, hreg.x_out]
    obtain ⟨c', hc'⟩ := comp_observe hf h0 hb h1 h2 h3 (.num (t : ℚ)) (hfr _) hob g'
    rw [hf.eq]
    refine ⟨_, _, inside_eq ((observe_drawn hr (by simp [hne, Dict.get?]) (z := .num (t : ℚ)) (g' := g') ?_ ho2).trans
      (RowMix.observe_accept (flexArrLaws (cgpmLaws 1)) hreg hr (by simp [Dict.get?_cons]) d2 rfl [] (by rw [ho2]; exact hc'))), d3⟩
    rw [show m.inputsZ = [] from hreg.inputs]
    exact d1
  · rw [hr] at hc
    obtain ⟨c', hc'⟩ := comp_observe hf h0 hb h1 h2 h3 z hc hob g
    rw [hf.eq]
    exact ⟨_, _, inside_eq (observe_held (flexArrLaws (cgpmLaws 1)) hreg hr rfl [] hc'), Within.refl 1 g⟩

/-- Observing different cells of a view succeeds. -/
theorem observeAll_total {Z : List Var} {l : List (RowId × Dict Var Val)} {v : View}
    (h : (cgpmTab Z 2).Reg v)
    (hl : ∀ e ∈ l, ∃ o x, e.2 = [(o, x)] ∧ o ∉ Z ∧ Takes v o x ∧ (cgpmTab Z 2).cell v e.1 o = none)
    (hd : l.Pairwise fun e e' => e.1 = e'.1 → Dict.keys e.2 ≠ Dict.keys e'.2) (g : Rng) :
    ∃ v' g', observeAll l (v, g) = (.ok (), (v', g')) ∧ Within l.length g g' := by
  induction l generalizing v g with
  | nil => exact ⟨v, g, rfl, Within.refl _ g⟩
  | cons e l ih =>
    obtain ⟨r, d⟩ := e
    obtain ⟨o, x, hd1, ho, ht, hc⟩ := hl (r, d) (by simp)
    dsimp only at hd1 hc
    subst hd1
    obtain ⟨v1, g1, h1, h2⟩ := view_observe h ht ho hc g
    have h3 : observeAll [(r, [(o, x)])] (v, g) = (.ok (), (v1, g1)) := by
      unfold observeAll
      rw [Py.bind_apply, h1]
      rfl
    obtain ⟨a1, a2, a3, a4, a5, -⟩ := observeAll_ok (Z := Z) (by
      intro e he y hy b hb
      rw [List.mem_singleton.1 he] at hb
      dsimp only at hb
      rw [Dict.get?_cons, if_neg (fun e : o = y => ho (e ▸ hy))] at hb
      cases hb) h h3
    rw [List.pairwise_cons] at hd
    obtain ⟨v2, g2, b1, b2⟩ := ih a1 (fun e he => by
      obtain ⟨o', x', c1, c2, c3, c4⟩ := hl e (by simp [he])
      refine ⟨o', x', c1, c2, c3.shape a1 a2, a5 e.1 o' c2 c4 fun e' he' her => ?_⟩
      rw [List.mem_singleton.1 he'] at her ⊢
      dsimp only at her ⊢
      have := hd.1 e he her
      rw [c1] at this
      rw [Dict.get?_cons, if_neg]
      · rfl
      · rintro rfl
        exact this rfl) hd.2 g1
    refine ⟨v2, g2, ?_, (h2.trans b2).mono (by rw [List.length_cons]; omega)⟩
    unfold observeAll
    rw [Py.bind_apply, h1]
    exact b1

/-! ## Adding and removing columns -/

theorem add_takes {Z : List Var} {v v' : View} {new : Prim} (h : (cgpmTab Z 2).Reg v) (hv : IsView v)
    (hn : (primTab Z).Reg new) (hd : new.data = []) (hz : ∀ x ∈ new.outputs, x ∉ Z)
    (ha : addCgpm 2 v new = .ok v') : (∀ o x, Takes v o x → Takes v' o x) ∧
      ∀ o x, new.outputs = [o] → new.Legal x → Takes v' o x := by
  obtain ⟨a1, a2, -⟩ := addCgpm_view h hv hn hd hz ha
  obtain ⟨m', p', hf'⟩ := flat_of_reg a1 a2
  obtain ⟨m, p, hf⟩ := flat_of_reg h hv
  have hp : p'.cgpms = p.cgpms ++ [ofPrim 0 new] := by
    rw [hf.eq] at ha
    obtain ⟨m'', h1, h4⟩ := except_map_ok ha
    rw [hf'.eq] at h4
    injection h4 with h4
    subst h4
    obtain ⟨b, cs, h5, h2, -⟩ := flexMixAdd_of hf.out hn.1 h1
    rw [hf.base] at h2
    obtain ⟨q, h3, h6⟩ := except_map_ok (show (Walk.productAdd (cgpmI 0) p (ofPrim 0 new)).map _ =
      Except.ok b from h2)
    have hq := productAdd_of (up := ofPrim 0) h3
    have hb := hf'.base
    rw [h5] at hb
    have hb : b = _ := hb
    rw [← h6] at hb
    injection hb with hb
    rw [← hb, hq]
  constructor
  · rintro o x ⟨m1, p1, hf1, b, hb, h1, h2, h3⟩
    have : p1 = p := by
      have e := hf1.eq
      rw [hf.eq] at e
      injection e with e
      subst e
      have e := hf1.base
      rw [hf.base] at e
      injection e with e
      exact e.symm
    subst this
    exact ⟨m', p', hf', b, by rw [hp]; exact List.mem_append_left _ hb, h1, h2, h3⟩
  · intro o x ho hl
    refine ⟨m', p', hf', new, ?_, ho, fun hk => ?_, hl⟩
    · rw [hp]; exact List.mem_append_right _ (List.mem_singleton.2 rfl)
    · have ho' : o ∈ new.outputs := by rw [ho]; simp
      exact hz o ho' (hn.2.2.1 hk o ho')

theorem add_total {Z : List Var} {bases : List Prim}
    (hb : ∀ p ∈ bases, (primTab Z).Reg p ∧ p.data = [] ∧ ∀ x ∈ p.outputs, x ∉ Z) {v : View}
    (h : (cgpmTab Z 2).Reg v) (hv : IsView v)
    (hn : ((cgpmI 2).outputs v ++ bases.flatMap Prim.outputs).Nodup) :
    ∃ v', bases.foldlM (addCgpm 2) v = .ok v' ∧ (∀ o x, Takes v o x → Takes v' o x) ∧
      ∀ p ∈ bases, ∀ o x, p.outputs = [o] → p.Legal x → Takes v' o x := by
  induction bases generalizing v with
  | nil => exact ⟨v, rfl, fun _ _ => id, by simp⟩
  | cons p bases ih =>
    obtain ⟨p1, p2, p3⟩ := hb p (by simp)
    rw [List.flatMap_cons, ← List.append_assoc] at hn
    have hn1 := (List.nodup_append.1 hn).1
    obtain ⟨v1, e1, -⟩ := (addLaw Z 2).ok v p h (isView_addable hv) p1 (fun r x => by simp [primTab, p2])
      (fun x hx hc => (List.nodup_append.1 hn1).2.2 x hc x hx rfl)
    obtain ⟨a1, a2, a3, -⟩ := addCgpm_view h hv p1 p2 p3 e1
    obtain ⟨t1, t2⟩ := add_takes h hv p1 p2 p3 e1
    obtain ⟨v2, e2, b1, b2⟩ := ih (fun q hq => hb q (by simp [hq])) a1 a2 (by rw [a3]; exact hn)
    refine ⟨v2, ?_, fun o x ht => b1 o x (t1 o x ht), fun q hq o x ho hl => ?_⟩
    · rw [List.foldlM_cons, e1]; exact e2
    · rcases List.mem_cons.1 hq with rfl | hq
      · exact b1 o x (t2 o x ho hl)
      · exact b2 q hq o x ho hl

/-- A Product of primitives from which columns can be taken. -/
def Plain1 (c : Cgpm 1) : Prop :=
  ∃ p : Product (Cgpm 0), c = (.product p : Node (Cgpm 0)) ∧ (p.cgpms.flatMap (cgpmI 0).outputs).Nodup ∧
    ∀ q ∈ p.cgpms, (cgpmI 0).inputs q = []

/-- A view from which columns can be taken. -/
def Loose (m : FlexMix (Cgpm 1)) : Prop :=
  m.rowDivide.outputs = [m.indexer] ∧ Plain1 m.array.base ∧ ∀ kc ∈ m.array.cgpms, Plain1 kc.2

theorem plain1_of_reg {Z : List Var} {c : Cgpm 1} {p : Product (Cgpm 0)} (h : (cgpmTab Z 1).Reg c)
    (hs : (cgpmSem 1).shape c = (cgpmSem 1).shape (.product p : Node (Cgpm 0))) : Plain1 c := by
  rcases c with c | c | c | c | c | c
  · cases hs
  · exact ⟨c, rfl, Product.validate_nodup h.2.1, fun q hq => (cgpmTLaws Z 0).inputs q (h.1 q hq)⟩
  · exact h.elim
  · exact h.elim
  · cases hs
  · cases hs

theorem Loose.of_reg {Z : List Var} {v : View} {m : FlexMix (Cgpm 1)} {p : Product (Cgpm 0)} (hf : Flat v m p)
    (h : (cgpmTab Z 2).Reg v) : Loose m := by
  rw [hf.eq] at h
  have hreg : MixReg _ _ _ _ _ _ _ m := h
  refine ⟨hf.out, plain1_of_reg (p := p) (flexMix_base (cgpmLaws 1) (cgpmTLaws Z 1) (m := m) hreg).1
    (by rw [hf.base]), fun kc hkc => ?_⟩
  have hget := Dict.get?_of_mem hreg.inv.2.1.2.2.1 hkc
  have hcopy := (hreg.inv.2.1.2.1 kc.1).2.2
  have hcr := (hreg.comp kc.1 (m.array.comp (cgpmSem 1) kc.1) rfl).1
  have hcomp : m.array.comp (cgpmSem 1) kc.1 = kc.2 := by
    unfold FlexArray.comp
    rw [hget]
    rfl
  rw [hcomp] at hcopy hcr
  rw [hf.base] at hcopy
  exact plain1_of_reg hcr hcopy

theorem plain1_remove {c : Cgpm 1} (h : Plain1 c) (o : Var) : ∃ c', removeCgpm 1 c o = .ok c' ∧ Plain1 c' := by
  obtain ⟨p, rfl, h1, h2⟩ := h
  have hn : ((p.cgpms.filter fun c => decide (o ∉ (cgpmI 0).outputs c)).flatMap (cgpmI 0).outputs).Nodup :=
    h1.sublist (List.Sublist.flatMap List.filter_sublist (cgpmI 0).outputs)
  refine ⟨(.product ⟨p.cgpms.filter fun c => decide (o ∉ (cgpmI 0).outputs c)⟩ : Node (Cgpm 0)), ?_, _, rfl, hn,
    fun q hq => h2 q (List.mem_of_mem_filter hq)⟩
  change (Walk.productRemove (cgpmI 0) p o).map _ = _
  rw [productRemove_ok h1]
  unfold Product.init
  rw [validate_of_nodup (fun q hq => h2 q (List.mem_of_mem_filter hq)) hn]
  rfl

theorem mapM_total {α β : Type} {f : α → Except Err β} {l : List α} {P : β → Prop}
    (h : ∀ a ∈ l, ∃ b, f a = .ok b ∧ P b) : ∃ l', l.mapM f = .ok l' ∧ ∀ b ∈ l', P b := by
  induction l with
  | nil => exact ⟨[], rfl, by simp⟩
  | cons a l ih =>
    obtain ⟨b, h1, h2⟩ := h a (by simp)
    obtain ⟨l', h3, h4⟩ := ih fun a ha => h a (by simp [ha])
    refine ⟨b :: l', ?_, ?_⟩
    · rw [List.mapM_cons, h1]
      change (do let bs ← l.mapM f; pure (b :: bs) : Except Err _) = _
      rw [h3]; rfl
    · intro c hc
      rcases List.mem_cons.1 hc with rfl | hc
      · exact h2
      · exact h4 c hc

theorem loose_remove {m : FlexMix (Cgpm 1)} (h : Loose m) {o : Var} (ho : o ≠ m.indexer) :
    ∃ m', removeCgpm 2 (.flexMix m : Node (Cgpm 1)) o = .ok (.flexMix m' : Node (Cgpm 1)) ∧ Loose m' ∧
      m'.indexer = m.indexer := by
  obtain ⟨h1, h2, h3⟩ := h
  obtain ⟨b, hb1, hb2⟩ := plain1_remove h2 o
  obtain ⟨cs, hc1, hc2⟩ := mapM_total (l := m.array.cgpms) (P := fun kc : Val × Cgpm 1 => Plain1 kc.2)
    (f := fun kc => (do
      let c' ← removeCgpm 1 kc.2 o
      pure (kc.1, c') : Except Err (Val × Cgpm 1))) (by
    intro kc hkc
    obtain ⟨c', e1, e2⟩ := plain1_remove (h3 kc hkc) o
    exact ⟨(kc.1, c'), by rw [e1]; rfl, e2⟩)
  refine ⟨⟨m.rowDivide, ⟨b, m.array.indexer, cs, m.array.rowidToIndex⟩, m.rowidToComponent⟩, ?_, ⟨h1, hb2, hc2⟩, rfl⟩
  change (Walk.flexMixRemove (removeCgpm 1) m o).map _ = _
  unfold Walk.flexMixRemove Walk.flexArrayRemove
  rw [if_neg ho, hb1]
  change ((do
    let a ← (do
      let cs ← m.array.cgpms.mapM fun kc => do
        let c' ← removeCgpm 1 kc.2 o
        pure (kc.1, c')
      pure (⟨b, m.array.indexer, cs, m.array.rowidToIndex⟩ : FlexArray (Cgpm 1)))
    let r ← FlexMix.init m.rowDivide a.base
    pure ({ r with rowidToComponent := m.rowidToComponent, array := a } : FlexMix (Cgpm 1)) :
      Except Err (FlexMix (Cgpm 1)))).map _ = _
  rw [hc1]
  change (do
    let r ← FlexMix.init m.rowDivide b
    pure _ : Except Err (FlexMix (Cgpm 1))).map _ = _
  unfold FlexMix.init
  rw [if_neg (by simp [h1])]
  rfl

theorem remove_total {Z : List Var} {v : View} {m : FlexMix (Cgpm 1)} {p : Product (Cgpm 0)} (hf : Flat v m p)
    (h : (cgpmTab Z 2).Reg v) {outs : List Var} (ho : ∀ o ∈ outs, o ≠ m.indexer) :
    ∃ v', outs.foldlM (removeCgpm 2) v = .ok v' := by
  have hl := Loose.of_reg hf h
  have he := hf.eq
  clear hf h
  induction outs generalizing v m with
  | nil => exact ⟨_, rfl⟩
  | cons o outs ih =>
    obtain ⟨m', e1, e2, e3⟩ := loose_remove hl (ho o (by simp))
    obtain ⟨v', e4⟩ := ih (v := (.flexMix m' : Node (Cgpm 1))) (m := m')
      (fun o h => by rw [e3]; exact ho o (by simp [h])) e2 rfl
    refine ⟨v', ?_⟩
    rw [List.foldlM_cons, he, e1]
    exact e4

/-! ## Proposals -/

/-- The data can be observed in the bases. -/
structure Feeds (bases : List Prim) (data : List (RowId × Dict Var Val)) : Prop where
  legal : ∀ e ∈ data, ∃ p ∈ bases, ∃ o x, p.outputs = [o] ∧ e.2 = [(o, x)] ∧ p.Legal x
  distinct : data.Pairwise fun e e' => e.1 = e'.1 → Dict.keys e.2 ≠ Dict.keys e'.2

theorem proposalExisting_total {Z : List Var} {X : RowId → Var → Option Val} {outs : List Var}
    {bases : List Prim} {datasets : List (List (RowId × Dict Var Val))}
    (h : Fed Z X outs bases datasets.flatten) (hl : Feeds bases datasets.flatten) {v : View}
    (hr : (cgpmTab Z 2).Reg v) (hv : IsView v) (hn : ((cgpmI 2).outputs v ++ outs).Nodup) (g : Rng) :
    ∃ p v' g', proposalExisting bases datasets (v, g) = (.ok p, (v', g')) ∧
      Within datasets.flatten.length g g' := by
  obtain ⟨w, e1, -, e3⟩ := add_total h.reg hr hv (by rw [h.base]; exact hn)
  obtain ⟨a1, a2, a3, a4, -⟩ := addCgpm_views h.reg hr hv e1
  obtain ⟨w', g', e4, e5⟩ := observeAll_total (l := datasets.flatten) a1 (by
    intro e he
    obtain ⟨p, hp, o, x, h1, h2, h3⟩ := hl.legal e he
    have ho : o ∈ outs := by rw [← h.base]; exact List.mem_flatMap.2 ⟨p, hp, by simp [h1]⟩
    refine ⟨o, x, h2, h.out o ho, e3 p hp o x h1 h3, (a4 e.1 o).trans ?_⟩
    exact (cgpmTLaws Z 2).cell_out _ _ _ hr fun hc => (List.nodup_append.1 hn).2.2 o hc o ho rfl) hl.distinct g
  refine ⟨w', share v w', g', ?_, e5⟩
  unfold proposalExisting
  dsimp only
  rw [e1]
  dsimp only
  rw [e4]

/-- The cluster variable `rng.randint` draws. -/
noncomputable def drawnVar (g : Rng) : Var := ((⌊g.uniform.1 * (2 ^ 32 - 1)⌋.toNat : Nat) : Int)

theorem drawnVar_eq (g : Rng) : drawnVar g = drawnInt g 0 := by
  unfold drawnVar drawnInt Rng.uniform
  refine Int.toNat_of_nonneg (Int.floor_nonneg.2 (mul_nonneg (Int.fract_nonneg _) (by norm_num)))

theorem drawn_within {k : Nat} {g g' : Rng} (h : Within k g g') : ∃ j ≤ k, ∀ n, drawnInt g' n = drawnInt g (n + j) := by
  obtain ⟨j, hj, h⟩ := h
  exact ⟨j, hj, fun n => by unfold drawnInt; rw [h]⟩

theorem proposalSingleton_total {Z : List Var} {X : RowId → Var → Option Val} {outs : List Var}
    {bases : List Prim} {datasets : List (List (RowId × Dict Var Val))}
    (h : Fed Z X outs bases datasets.flatten) (hl : Feeds bases datasets.flatten) (hne : outs ≠ [])
    (hn : outs.Nodup) (g : Rng) (hz : drawnVar g ∉ outs) :
    ∃ p g', proposalSingleton bases datasets g = (.ok p, g') ∧ Within datasets.flatten.length g.next.2 g' ∧
      (cgpmI 2).outputs p = drawnVar g :: outs := by
  have hv : Product.validate primI bases = .ok () :=
    validate_of_nodup (fun q hq => (h.reg q hq).1.2.1) (by
      change (bases.flatMap Prim.outputs).Nodup
      rw [h.base]; exact hn)
  have hbne : bases ≠ [] := by
    rintro rfl
    exact hne (by rw [← h.base]; rfl)
  have hbase : ∀ {Z' : List Var}, (∀ p ∈ bases, (primTab Z').Reg p) →
      (cgpmTab Z' 1).Reg (.product ⟨bases⟩ : Node Prim) := fun hb => ⟨hb, hv, hbne⟩
  obtain ⟨m, hm'⟩ : ∃ m : FlexMix (Node Prim), m = ⟨.crp (Crp.init [drawnVar g] [] [] []),
      FlexArray.init (.product ⟨bases⟩ : Node Prim) (drawnVar g), []⟩ := ⟨_, rfl⟩
  have hgood : (Prim.crp (Crp.init [drawnVar g] [] [] [])).Good := by
    refine ⟨Crp.inv_init _ _ _ _, ?_⟩
    simp [LegalHypers, Crp.init]
  have hfresh : ∀ r, (cgpmTab Z 1).Fresh (.product ⟨bases⟩ : Node Prim) r := by
    intro r x
    refine ProdTab.cell_none_iff.2 fun p hp => ?_
    simp [cgpmTab, primTab, (h.reg p hp).2.1]
  have hscore : (cgpmI 1).logpdfScore (.product ⟨bases⟩ : Node Prim) = .ok (.fin 0) := by
    refine (cgpmFrame Z 1).zero _ (hbase fun p hp => (h.reg p hp).1) hfresh ?_
    refine (sumScore_fin_iff primI.logpdfScore bases).2 fun p hp => ?_
    exact ⟨_, Prim.logpdfScore_eq (h.reg p hp).1.1.1 (h.reg p hp).1.1.2⟩
  have h' := h.cons hz
  have hreg : (cgpmTab (drawnVar g :: Z) 2).Reg (.flexMix m : Node (Node Prim)) := by
    rw [hm']
    refine flexMix_init_reg hgood rfl (.inl rfl) (fun x hx => ?_) rfl
      (hbase fun p hp => (h'.reg p hp).1) (fun r x => ?_) hscore (fun x hx => ?_)
    · have hx : x ∈ [drawnVar g] := hx
      rw [List.mem_singleton.1 hx]
      exact List.mem_cons_self
    · rw [(cellsZ _ Z 1).1]
      exact hfresh r x
    · have hx : x ∈ [drawnVar g] := hx
      rw [List.mem_singleton.1 hx]
      rw [← h.base] at hz
      exact hz
  have hview : IsView (.flexMix m : Node (Node Prim)) := by
    rw [hm']
    exact ⟨_, ⟨bases⟩, rfl, rfl, rfl⟩
  have hcells : ∀ r x, (cgpmTab (drawnVar g :: Z) 2).cell (.flexMix m : Node (Node Prim)) r x = none := by
    intro r x
    rw [hm']
    change (if x = _ then Dict.get? [] r else (Dict.get? [] r).bind _) = none
    simp [Dict.get?]
  have hout : (cgpmI 2).outputs (.flexMix m : Node (Node Prim)) = drawnVar g :: outs := by
    rw [hm', ← h.base]; rfl
  obtain ⟨m1, p1, hf⟩ := flat_of_reg hreg hview
  have hp1 : p1 = ⟨bases⟩ := by
    have e := hf.eq
    injection e with e
    subst e
    have e := hf.base
    rw [hm'] at e
    injection e with e
    exact e.symm
  subst hp1
  obtain ⟨w', g', e4, e5⟩ := observeAll_total (l := datasets.flatten) (g := g.uniform.2) hreg (by
    intro e he
    obtain ⟨p, hp, o, x, h1, h2, h3⟩ := hl.legal e he
    have ho : o ∈ outs := by rw [← h.base]; exact List.mem_flatMap.2 ⟨p, hp, by simp [h1]⟩
    refine ⟨o, x, h2, h'.out o ho, ⟨m1, ⟨bases⟩, hf, p, hp, h1, fun hk => ?_, h3⟩, hcells _ _⟩
    exact h.out o ho ((h.reg p hp).1.2.2.1 hk o (by simp [h1]))) hl.distinct
  refine ⟨w', g', ?_, ?_, ?_⟩
  · unfold proposalSingleton
    change (match (do
        let base ← Product.init primI bases
        FlexMix.init (.crp (Crp.init [drawnVar g] [] [] [])) (.product base : Node Prim) :
          Except Err (FlexMix (Node Prim))) with
    | .error e => (.error e, g.uniform.2)
    | .ok m =>
      match observeAll datasets.flatten ((.flexMix m : Node (Node Prim)), g.uniform.2) with
      | (.ok _, (view, g')) => (.ok view, g')
      | (.error e, (_, g')) => (.error e, g') : Except Err View × Rng) = _
    have : (do
        let base ← Product.init primI bases
        FlexMix.init (.crp (Crp.init [drawnVar g] [] [] [])) (.product base : Node Prim) :
          Except Err (FlexMix (Node Prim))) = .ok m := by
      unfold Product.init
      rw [hv, hm']
      rfl
    rw [this]
    dsimp only
    rw [e4]
  · exact e5
  · rw [← hout]
    exact observeAll_outputs ((cgpmTLaws _ 2).inv _ hreg) e4

theorem basesOf_total {Z : List Var} {x : Crosscat} (h : CC Z x) {outs : List Var}
    (ho : ∀ o ∈ outs, o ∈ columns x) (hn : outs.Nodup) :
    ∃ bases datasets, basesOf x outs = .ok (bases, datasets) ∧ Feeds bases datasets.flatten := by
  have key : ∀ outs : List Var, (∀ o ∈ outs, o ∈ columns x) → outs.Nodup → ∃ bases datasets,
      (outs.mapM fun output => cgpmBase (n := 3) (whole x) output) = .ok bases ∧
      (outs.mapM fun output => Cpp.getDataset (n := 3) (whole x) output) = .ok datasets ∧
      Feeds bases datasets.flatten ∧ ∀ e ∈ datasets.flatten, ∃ o ∈ outs, Dict.keys e.2 = [o] := by
    intro outs
    induction outs with
    | nil => exact fun _ _ => ⟨[], [], rfl, rfl, ⟨by simp, by simp⟩, by simp⟩
    | cons o outs ih =>
      intro ho hn
      rw [List.nodup_cons] at hn
      obtain ⟨bases, ds, e1, e2, e3, e4⟩ := ih (fun o h => ho o (by simp [h])) hn.2
      have hoc := ho o (by simp)
      obtain ⟨b, b1, b2, b3, b4, b5⟩ := cgpmBase_column h hoc
      obtain ⟨l, l1, l2, l3⟩ := getDataset_eq h.reg (h.mem_outputs hoc)
      refine ⟨b :: bases, l :: ds, ?_, ?_, ⟨?_, ?_⟩, ?_⟩
      · rw [List.mapM_cons, b2]
        change (do let bs ← _; pure (b :: bs) : Except Err _) = _
        rw [e1]; rfl
      · rw [List.mapM_cons, l1]
        change (do let bs ← _; pure (l :: bs) : Except Err _) = _
        rw [e2]; rfl
      · intro e he
        rw [List.flatten_cons, List.mem_append] at he
        rcases he with he | he
        · obtain ⟨y, hy, hd⟩ := (l3 e.1 e.2).1 he
          refine ⟨b, by simp, o, y, b3, hd, ?_⟩
          obtain ⟨q, q1, q2, q3⟩ := cell_prim h hoc hy
          obtain ⟨c1, c2⟩ := b5 q q1 q2
          have hg := reg_prims 3 _ h.reg q q1
          have hk : q.kind ≠ .crp := fun hk => h.plain o hoc (hg.2.2 hk o (by simp [q2]))
          exact (legal_of_kind c1 c2 hk).1 (legal_of_mem hg.1.1 hk q3)
        · obtain ⟨p, hp, o', y, h1, h2, h3⟩ := e3.legal e he
          exact ⟨p, by simp [hp], o', y, h1, h2, h3⟩
      · rw [List.flatten_cons, List.pairwise_append]
        refine ⟨?_, e3.distinct, fun e he e' he' _ hk => ?_⟩
        · exact (List.pairwise_map.1 l2).imp fun h e => absurd e h
        · obtain ⟨y, hy, hd⟩ := (l3 e.1 e.2).1 he
          obtain ⟨o', ho', hk'⟩ := e4 e' he'
          rw [hd, hk'] at hk
          simp only [Dict.keys, List.map_cons, List.map_nil, List.cons.injEq, and_true] at hk
          exact hn.1 (hk ▸ ho')
      · intro e he
        rw [List.flatten_cons, List.mem_append] at he
        rcases he with he | he
        · obtain ⟨y, hy, hd⟩ := (l3 e.1 e.2).1 he
          exact ⟨o, by simp, by rw [hd]; rfl⟩
        · obtain ⟨o', ho', hk'⟩ := e4 e he
          exact ⟨o', by simp [ho'], hk'⟩
  obtain ⟨bases, ds, e1, e2, e3, -⟩ := key outs ho hn
  refine ⟨bases, ds, ?_, e3⟩
  unfold basesOf
  rw [e1]
  change (do let datasets ← _; pure (bases, datasets) : Except Err _) = _
  rw [e2]
  rfl

/-! ## Moving columns -/

theorem drop_total {l : List View} (hn : (l.flatMap (cgpmI 2).outputs).Nodup)
    (hi : ∀ v ∈ l, (cgpmI 2).inputs v = []) (u : View) : ∃ y, dropView ⟨l⟩ u = .ok y ∧
      y.cgpms = l.filter fun c => decide (((cgpmI 2).outputs u).headD 0 ∉ (cgpmI 2).outputs c) := by
  refine ⟨⟨_⟩, ?_, rfl⟩
  unfold dropView
  rw [productRemove_ok (p := ⟨l⟩) hn]
  unfold Product.init
  rw [validate_of_nodup (fun v hv => hi v (List.mem_of_mem_filter hv))
    (hn.sublist (List.Sublist.flatMap List.filter_sublist (cgpmI 2).outputs))]
  rfl

theorem put_total {y : Crosscat} {T : View} (hn : (y.cgpms.flatMap (cgpmI 2).outputs ++ (cgpmI 2).outputs T).Nodup)
    (hi : ∀ v ∈ y.cgpms, (cgpmI 2).inputs v = []) (ht : (cgpmI 2).inputs T = []) :
    ∃ x', putView y T = .ok x' := by
  refine ⟨⟨y.cgpms ++ [T]⟩, ?_⟩
  unfold putView Walk.productAdd Product.init
  rw [validate_of_nodup (l := y.cgpms ++ [T])]
  · rfl
  · intro v hv
    rcases List.mem_append.1 hv with hv | hv
    · exact hi v hv
    · rw [List.mem_singleton.1 hv]; exact ht
  · rw [List.flatMap_append, List.flatMap_singleton]; exact hn

/-- Columns can leave a view. -/
theorem leave_total {Z : List Var} {x : Crosscat} (h : CC Z x) {v0 : View} (m0 : v0 ∈ x.cgpms)
    {outs : List Var} (ho : ∀ o ∈ outs, o ∈ viewColumns v0) : ∃ v0' y1 y2,
      outs.foldlM (removeCgpm 2) v0 = .ok v0' ∧ dropView x v0 = .ok y1 ∧ restore y1 v0' = .ok y2 ∧
      (y2.cgpms.flatMap (cgpmI 2).outputs).Nodup ∧ (∀ v ∈ y2.cgpms, (cgpmI 2).inputs v = []) ∧
      (∀ a ∈ y2.cgpms.flatMap (cgpmI 2).outputs, a ∈ (cgpmI 3).outputs (whole x) ∧ a ∉ outs) ∧
      ∀ v ∈ x.cgpms, v ≠ v0 → v ∈ y2.cgpms := by
  have hreg := h.viewReg m0
  obtain ⟨m, p, hf⟩ := flat_of_reg hreg (h.views v0 m0)
  have hcols : viewColumns v0 = p.cgpms.flatMap (cgpmI 0).outputs := by
    unfold viewColumns; rw [hf.outputs]; rfl
  have hn0 : ((cgpmI 2).outputs v0).Nodup := (cgpmTLaws Z 2).nodup _ hreg
  have hix : m.indexer ∉ viewColumns v0 := by
    rw [hf.outputs, ← hcols, List.nodup_cons] at hn0
    exact hn0.1
  have hnot : ∀ o ∈ outs, o ≠ m.indexer := fun o h' e => hix (e ▸ ho o h')
  obtain ⟨v0', e1⟩ := remove_total hf hreg hnot
  obtain ⟨-, m', p', a2, a3, a4, a5⟩ := remove_views (Z := Z) hf e1
  have hinp : ∀ v ∈ x.cgpms, (cgpmI 2).inputs v = [] := fun v hv => (cgpmTLaws Z 2).inputs v (h.viewReg hv)
  obtain ⟨y1, e2, e3⟩ := drop_total h.nodup hinp v0
  have hperm := dropView_ok h.nodup m0 (h.head_mem m0) e2
  have hny := ((hperm.flatMap_right (cgpmI 2).outputs).nodup_iff.1 h.nodup)
  rw [List.flatMap_cons, List.nodup_append] at hny
  have hsub : ∀ a ∈ (cgpmI 2).outputs v0', a ∈ (cgpmI 2).outputs v0 ∧ a ∉ outs := by
    intro a ha
    rw [a2.outputs, a3, a4] at ha
    rw [hf.outputs]
    rcases List.mem_cons.1 ha with rfl | ha
    · exact ⟨List.mem_cons_self, fun hc => hnot _ hc rfl⟩
    · rw [List.mem_filter] at ha
      exact ⟨List.mem_cons_of_mem _ ha.1, by simpa using ha.2⟩
  have hn0' : ((cgpmI 2).outputs v0').Nodup := by
    rw [hf.outputs, List.nodup_cons] at hn0
    rw [a2.outputs, a3, a4, List.nodup_cons]
    exact ⟨fun hc => hn0.1 (List.mem_of_mem_filter hc), hn0.2.filter _⟩
  have hy1x : ∀ v ∈ y1.cgpms, v ∈ x.cgpms := fun v hv => by rw [e3] at hv; exact List.mem_of_mem_filter hv
  have hy1o : ∀ a ∈ y1.cgpms.flatMap (cgpmI 2).outputs, a ∈ (cgpmI 3).outputs (whole x) ∧ a ∉ outs := by
    intro a ha
    refine ⟨?_, fun hc => hny.2.2 a (columns_sub (ho a hc)) a ha rfl⟩
    obtain ⟨v, hv, hav⟩ := List.mem_flatMap.1 ha
    exact List.mem_flatMap.2 ⟨v, hy1x v hv, hav⟩
  have hkeep : ∀ v ∈ x.cgpms, v ≠ v0 → v ∈ y1.cgpms := by
    intro v hv hne
    rcases List.mem_cons.1 (hperm.mem_iff.1 hv) with rfl | hv
    · exact absurd rfl hne
    · exact hv
  by_cases hl : 1 < ((cgpmI 2).outputs v0').length
  · obtain ⟨r1, -, -⟩ := a5 hreg hl
    have hnod : (y1.cgpms.flatMap (cgpmI 2).outputs ++ (cgpmI 2).outputs v0').Nodup := by
      rw [List.nodup_append]
      exact ⟨hny.2.1, hn0', fun a ha b hb e => hny.2.2 b (hsub b hb).1 a ha e.symm⟩
    have hi0 := (cgpmTLaws Z 2).inputs v0' r1
    obtain ⟨y2, e4⟩ := put_total hnod (fun v hv => hinp v (hy1x v hv)) hi0
    have e5 := (putView_ok e4).1
    refine ⟨v0', y1, y2, e1, e2, by unfold restore; rw [if_pos hl]; exact e4, ?_, fun v hv => ?_, fun a ha => ?_,
      fun v hv hne => by rw [e5]; exact List.mem_append_left _ (hkeep v hv hne)⟩
    · rw [e5, List.flatMap_append, List.flatMap_singleton]; exact hnod
    · rw [e5] at hv
      rcases List.mem_append.1 hv with hv | hv
      · exact hinp v (hy1x v hv)
      · rw [List.mem_singleton.1 hv]; exact hi0
    · rw [e5, List.flatMap_append, List.flatMap_singleton] at ha
      rcases List.mem_append.1 ha with ha | ha
      · exact hy1o a ha
      · exact ⟨List.mem_flatMap.2 ⟨v0, m0, (hsub a ha).1⟩, (hsub a ha).2⟩
  · exact ⟨v0', y1, y1, e1, e2, by unfold restore; rw [if_neg hl]; rfl, hny.2.1,
      fun v hv => hinp v (hy1x v hv), hy1o, hkeep⟩

/-- Columns can join a view. -/
theorem join_total {y2 : Crosscat} (hn : (y2.cgpms.flatMap (cgpmI 2).outputs).Nodup)
    (hi : ∀ v ∈ y2.cgpms, (cgpmI 2).inputs v = []) {outs : List Var} (ho : ∀ a ∈ y2.cgpms.flatMap (cgpmI 2).outputs, a ∉ outs)
    {u v1 T : View} (hv1 : v1 ∈ y2.cgpms) (hu : (cgpmI 2).outputs u = (cgpmI 2).outputs v1)
    (hh : ((cgpmI 2).outputs v1).headD 0 ∈ (cgpmI 2).outputs v1)
    (hT : (cgpmI 2).outputs T = (cgpmI 2).outputs v1 ++ outs) (hno : outs.Nodup) (hti : (cgpmI 2).inputs T = []) :
    ∃ y3 x', dropView y2 u = .ok y3 ∧ putView y3 T = .ok x' ∧
      ∀ a ∈ (cgpmI 3).outputs (whole x'), a ∈ y2.cgpms.flatMap (cgpmI 2).outputs ∨ a ∈ outs := by
  obtain ⟨y3, e1, e2⟩ := drop_total hn hi u
  have hperm := dropView_ok hn hv1 (by rw [hu]; exact hh) e1
  have hny := (hperm.flatMap_right (cgpmI 2).outputs).nodup_iff.1 hn
  have hmem : ∀ a, a ∈ y2.cgpms.flatMap (cgpmI 2).outputs ↔
      a ∈ (cgpmI 2).outputs v1 ∨ a ∈ y3.cgpms.flatMap (cgpmI 2).outputs := fun a => by
    rw [(hperm.flatMap_right (cgpmI 2).outputs).mem_iff, List.flatMap_cons, List.mem_append]
  rw [List.flatMap_cons, List.nodup_append] at hny
  obtain ⟨x', e3⟩ := put_total (y := y3) (T := T) (by
    rw [hT, List.nodup_append]
    refine ⟨hny.2.1, List.nodup_append.2 ⟨hny.1, hno, fun a ha b hb e => ?_⟩, fun a ha b hb e => ?_⟩
    · exact ho a ((hmem a).2 (.inl ha)) (e ▸ hb)
    · rcases List.mem_append.1 hb with hb | hb
      · exact hny.2.2 b hb a ha e.symm
      · exact ho a ((hmem a).2 (.inr ha)) (e ▸ hb))
    (fun v hv => hi v (by rw [e2] at hv; exact List.mem_of_mem_filter hv)) hti
  refine ⟨y3, x', e1, e3, fun a ha => ?_⟩
  change a ∈ x'.cgpms.flatMap (cgpmI 2).outputs at ha
  rw [(putView_ok e3).1, List.flatMap_append, List.flatMap_singleton, hT, List.mem_append, List.mem_append] at ha
  rcases ha with ha | ha | ha
  · exact .inl ((hmem a).2 (.inr ha))
  · exact .inl ((hmem a).2 (.inl ha))
  · exact .inr ha

/-- Columns can make up a new view. -/
theorem new_total {y2 : Crosscat} (hn : (y2.cgpms.flatMap (cgpmI 2).outputs).Nodup)
    (hi : ∀ v ∈ y2.cgpms, (cgpmI 2).inputs v = []) {outs : List Var} (ho : ∀ a ∈ y2.cgpms.flatMap (cgpmI 2).outputs, a ∉ outs)
    {T : View} {z : Var} (hz : z ∉ y2.cgpms.flatMap (cgpmI 2).outputs) (hzo : z ∉ outs)
    (hT : (cgpmI 2).outputs T = z :: outs) (hno : outs.Nodup) (hti : (cgpmI 2).inputs T = []) :
    ∃ x', putView y2 T = .ok x' := by
  refine put_total ?_ hi hti
  rw [hT, List.nodup_append, List.nodup_cons]
  refine ⟨hn, ⟨hzo, hno⟩, fun a ha b hb e => ?_⟩
  rcases List.mem_cons.1 hb with rfl | hb
  · exact hz (e ▸ ha)
  · exact ho a ha (e ▸ hb)

/-- Columns have at most as many values as there are rows times columns. -/
theorem feds_length {Z : List Var} {x : Crosscat} {outs : List Var} {bases : List Prim}
    {data : List (RowId × Dict Var Val)}
    (h : Fed Z (fun r a => (cgpmTab Z 3).cell (whole x) r a) outs bases data) (hl : Feeds bases data)
    {rows : List RowId} (hr : ∀ o ∈ outs, ∀ r, (cgpmTab Z 3).cell (whole x) r o ≠ none → r ∈ rows) :
    data.length ≤ outs.length * rows.length := by
  have hk : ∀ e ∈ data, ∃ o y, o ∈ outs ∧ e.2 = [(o, y)] := fun e he => by
    obtain ⟨p, hp, o', y, h1, h2, -⟩ := hl.legal e he
    exact ⟨o', y, by rw [← h.base]; exact List.mem_flatMap.2 ⟨p, hp, by simp [h1]⟩, h2⟩
  have hn : (data.map fun e => ((Dict.keys e.2).headD 0, e.1)).Nodup := by
    unfold List.Nodup
    rw [List.pairwise_map]
    refine hl.distinct.imp_of_mem fun {a b} ha hb hab e => ?_
    obtain ⟨o, y, -, hy⟩ := hk a ha
    obtain ⟨o', y', -, hy'⟩ := hk b hb
    rw [hy, hy'] at e hab
    have e1 : o = o' := congrArg Prod.fst e
    exact hab (congrArg Prod.snd e) (by rw [e1]; rfl)
  rw [← List.length_product, ← List.length_map (as := data) (f := fun e => ((Dict.keys e.2).headD 0, e.1))]
  refine (List.subperm_of_subset hn fun e' he' => ?_).length_le
  obtain ⟨e, he, rfl⟩ := List.mem_map.1 he'
  obtain ⟨o, y, ho, hy⟩ := hk e he
  have hd : (Dict.keys e.2).headD 0 = o := by rw [hy]; rfl
  rw [hd]
  refine List.pair_mem_product.2 ⟨ho, hr o ho e.1 ?_⟩
  rw [(h.cell e.1 o ho y).2 ⟨e, he, rfl, by rw [hy, Dict.get?_cons, if_pos rfl]⟩]
  nofun

/-- A column has at most as many values as there are rows. -/
theorem fed_length {Z : List Var} {x : Crosscat} {o : Var} {bases : List Prim} {data : List (RowId × Dict Var Val)}
    (h : Fed Z (fun r a => (cgpmTab Z 3).cell (whole x) r a) [o] bases data) (hl : Feeds bases data)
    {rows : List RowId} (hr : ∀ r, (cgpmTab Z 3).cell (whole x) r o ≠ none → r ∈ rows) :
    data.length ≤ rows.length := by
  have := feds_length h hl (rows := rows) (by simpa using hr)
  simpa using this

/-- Moving a column to another view succeeds. -/
theorem setExisting_total {Z : List Var} {x : Crosscat} (h : CC Z x) {o0 o1 : Var}
    (h0 : o0 ∈ columns x) (h1 : o1 ∈ columns x) (g : Rng) :
    ∃ x' x'' g', setExisting o0 o1 (x, g) = (.ok x', (x'', g')) ∧ (∀ rows : List RowId,
      (∀ r, (cgpmTab Z 3).cell (whole x) r o0 ≠ none → r ∈ rows) → Within rows.length g g') ∧
      ∀ a ∈ (cgpmI 3).outputs (whole x'), a ∈ (cgpmI 3).outputs (whole x) := by
  obtain ⟨i0, hi0, v0, hv0, ho0⟩ := viewIndex_eq h h0
  obtain ⟨i1, hi1, v1, hv1, ho1⟩ := viewIndex_eq h h1
  have m0 := List.mem_of_getElem? hv0
  have m1 := List.mem_of_getElem? hv1
  by_cases hii : i0 = i1
  · refine ⟨x, x, g, ?_, fun rows _ => Within.refl _ g, fun _ h => h⟩
    unfold setExisting
    rw [Py.get_bind]
    dsimp only
    rw [hi0, Py.lift_bind]
    dsimp only
    rw [hi1, Py.lift_bind]
    dsimp only
    rw [if_pos hii]
    rfl
  · obtain ⟨bases, ds, hb, hfe⟩ := basesOf_total h (outs := [o0]) (by simpa using h0) (by simp)
    have hfed := basesOf_ok h (by simpa using h0) hb
    have hov : o0 ∉ (cgpmI 2).outputs v1 := by
      intro hc
      exact hii (viewIndex_ok hi0 (by simp) hv1 hc).symm
    obtain ⟨T, v1', g', hp, hlat⟩ := proposalExisting_total hfed hfe (h.viewReg m1) (h.views v1 m1) (by
      rw [List.nodup_append]
      refine ⟨(cgpmTLaws Z 2).nodup _ (h.viewReg m1), by simp, fun a ha b hb e => ?_⟩
      rw [List.mem_singleton] at hb
      rw [e, hb] at ha
      exact hov ha) g
    obtain ⟨hprop, hkept⟩ := proposalExisting_ok hfed (h.viewReg m1) (h.views v1 m1) hp
    obtain ⟨hs, -⟩ := kept_same h (h.valued (by simpa using h0)) (kept_set h.all hv1 hkept)
    have m0' : v0 ∈ x.cgpms.set i1 v1' := List.mem_iff_getElem?.2 ⟨i0, by
      rw [List.getElem?_set_ne (Ne.symm hii)]; exact hv0⟩
    have m1' : v1' ∈ x.cgpms.set i1 v1' := List.mem_iff_getElem?.2 ⟨i1, by
      rw [List.getElem?_set_self (List.getElem?_eq_some_iff.1 hv1).1]⟩
    have hne : v1' ≠ v0 := by
      rintro rfl
      exact hov (by rw [← hkept.outs]; exact columns_sub ho0)
    obtain ⟨v0', y1, y2, e1, e2, e3, e4, e5, e6, e7⟩ := leave_total hs.cc (outs := [o0]) m0' (by simpa using ho0)
    have hv0' : removeCgpm 2 v0 o0 = .ok v0' := by
      rw [List.foldlM_cons] at e1
      rcases hr : removeCgpm 2 v0 o0 with e | w
      · rw [hr] at e1; cases e1
      · rw [hr] at e1; cases e1; rfl
    obtain ⟨y3, x', e8, e9, e10⟩ := join_total e4 e5 (fun a ha => (e6 a ha).2) (u := v1) (T := T) (e7 v1' m1' hne) hkept.outs.symm
      (hs.cc.head_mem m1') (by rw [hprop.out, hkept.outs]) (by simp) ((cgpmTLaws Z 2).inputs _ hprop.reg)
    refine ⟨x', _, g', setExisting_run hi0 hi1 hii (by unfold item; rw [hv0]) hv0' hv1 hb hp e2 e3 e8 e9, fun rows hr => hlat.mono (fed_length hfed hfe hr),
      fun a ha => ?_⟩
    have hout : (x.cgpms.set i1 v1').flatMap (cgpmI 2).outputs = x.cgpms.flatMap (cgpmI 2).outputs := by
      refine flatMap_of_map ?_
      obtain ⟨hlt, hv⟩ := List.getElem?_eq_some_iff.1 hv1
      rw [List.map_set, hkept.outs]
      refine List.ext_getElem? fun j => ?_
      rw [List.getElem?_set]
      split
      · next h0 => subst h0; simp [hlt, hv]
      · rfl
    rcases e10 a ha with ha | ha
    · have := (e6 a ha).1
      change a ∈ (x.cgpms.set i1 v1').flatMap (cgpmI 2).outputs at this
      rwa [hout] at this
    · exact List.mem_singleton.1 ha ▸ h.mem_outputs h0

/-- Moving a column to a view of its own succeeds unless the variable drawn is in use. -/
theorem setSingleton_total {Z : List Var} {x : Crosscat} (h : CC Z x) {o0 : Var}
    (h0 : o0 ∈ columns x) (g : Rng) (hz : drawnVar g ∉ (cgpmI 3).outputs (whole x)) :
    ∃ x' g', setSingleton o0 (x, g) = (.ok x', (x, g')) ∧ (∀ rows : List RowId,
      (∀ r, (cgpmTab Z 3).cell (whole x) r o0 ≠ none → r ∈ rows) → Within rows.length g.next.2 g') ∧
      ∀ a ∈ (cgpmI 3).outputs (whole x'), a ∈ (cgpmI 3).outputs (whole x) ∨ a = drawnVar g := by
  obtain ⟨i0, hi0, v0, hv0, ho0⟩ := viewIndex_eq h h0
  have m0 := List.mem_of_getElem? hv0
  obtain ⟨bases, ds, hb, hfe⟩ := basesOf_total h (outs := [o0]) (by simpa using h0) (by simp)
  have hfed := basesOf_ok h (by simpa using h0) hb
  have hzo : drawnVar g ∉ [o0] := by
    intro hc
    rw [List.mem_singleton] at hc
    exact hz (hc ▸ h.mem_outputs h0)
  obtain ⟨T, g', hp, hlat, hT⟩ := proposalSingleton_total hfed hfe (by simp) (by simp) g hzo
  obtain ⟨z, hz', hsing⟩ := proposalSingleton_ok hfed (by simp) hp
  rw [hT] at hz'
  injection hz' with hz'
  have hreg := (hsing (hz' ▸ hzo)).reg
  obtain ⟨v0', y1, y2, e1, e2, e3, e4, e5, e6, -⟩ := leave_total h (outs := [o0]) m0 (by simpa using ho0)
  have hv0' : removeCgpm 2 v0 o0 = .ok v0' := by
    rw [List.foldlM_cons] at e1
    rcases hr : removeCgpm 2 v0 o0 with e | w
    · rw [hr] at e1; cases e1
    · rw [hr] at e1; cases e1; rfl
  obtain ⟨x', e7⟩ := new_total e4 e5 (fun a ha => (e6 a ha).2) (T := T) (fun hc => hz (e6 _ hc).1) hzo hT (by simp)
    ((cgpmTLaws _ 2).inputs _ hreg)
  refine ⟨x', g', setSingleton_run hi0 (by unfold item; rw [hv0]) hv0' hb hp e2 e3 e7,
    fun rows hr => hlat.mono (fed_length hfed hfe hr), fun a ha => ?_⟩
  change a ∈ x'.cgpms.flatMap (cgpmI 2).outputs at ha
  rw [(putView_ok e7).1, List.flatMap_append, List.flatMap_singleton, hT, List.mem_append, List.mem_cons,
    List.mem_singleton] at ha
  rcases ha with ha | ha | ha
  · exact .inl (e6 a ha).1
  · exact .inr ha
  · exact .inl (ha ▸ h.mem_outputs h0)

/-! ## The sampler -/

theorem viewIndex_total {Z : List Var} {x : Crosscat} (h : CC Z x) {outs : List Var} (hne : outs ≠ [])
    {k : Nat} {v : View} (hk : x.cgpms[k]? = some v) (ho : ∀ o ∈ outs, o ∈ viewColumns v) :
    viewIndex x outs = .ok k := by
  have hmem : ∀ w, w ∈ (outs.flatMap fun output =>
      (x.cgpms.zipIdx.filter fun vi => decide (output ∈ (cgpmI 2).outputs vi.1)).map Prod.snd) → w = k := by
    intro w hw
    obtain ⟨o, hoo, hw⟩ := List.mem_flatMap.1 hw
    obtain ⟨⟨u, i⟩, hm, rfl⟩ := List.mem_map.1 hw
    obtain ⟨hm, hou⟩ := List.mem_filter.1 hm
    have hi := List.mem_zipIdx_iff_getElem?.1 hm
    exact index_unique h.nodup hi hk (by simpa using hou) (columns_sub (ho o hoo))
  have hin : k ∈ (outs.flatMap fun output =>
      (x.cgpms.zipIdx.filter fun vi => decide (output ∈ (cgpmI 2).outputs vi.1)).map Prod.snd) := by
    obtain ⟨o, hoo⟩ := List.exists_mem_of_ne_nil _ hne
    refine List.mem_flatMap.2 ⟨o, hoo, List.mem_map.2 ⟨(v, k), List.mem_filter.2 ⟨?_, ?_⟩, rfl⟩⟩
    · rw [List.mem_zipIdx_iff_getElem?]; exact hk
    · simpa using columns_sub (ho o hoo)
  unfold viewIndex
  dsimp only
  revert hmem hin
  generalize (outs.flatMap fun output =>
      (x.cgpms.zipIdx.filter fun vi => decide (output ∈ (cgpmI 2).outputs vi.1)).map Prod.snd) = l
  intro hmem hin
  rcases l with _ | ⟨a, l⟩
  · cases hin
  · dsimp only
    rw [if_neg, hmem a (by simp)]
    rw [not_not]
    intro w hw
    rw [hmem w (by simp [hw]), hmem a (by simp)]

theorem proposeFrom_total {Z : List Var} {X : RowId → Var → Option Val} {outs : List Var}
    {bases : List Prim} {datasets : List (List (RowId × Dict Var Val))}
    (h : Fed Z X outs bases datasets.flatten) (hl : Feeds bases datasets.flatten) {cur : Nat} (hc : cur ≤ 256)
    {views : List View} {i : Nat} (hr : ∀ v ∈ views, (cgpmTab Z 2).Reg v ∧ IsView v)
    (hd : ∀ (j : Nat) v, views[j]? = some v → i + j ≠ cur → ((cgpmI 2).outputs v ++ outs).Nodup) (g : Rng) :
    ∃ ps views' g', proposeFrom bases datasets cur i views g = (.ok ps, (views', g')) ∧
      Within (views.length * datasets.flatten.length) g g' ∧
      ∀ (j : Nat) v, views[j]? = some v → i + j = cur → ps[j]? = some v := by
  induction views generalizing i g with
  | nil => exact ⟨[], [], g, rfl, Within.refl _ g, by simp⟩
  | cons v views ih =>
    obtain ⟨p, v', g1, h1, h2, h3⟩ : ∃ p v' g1, proposeOne bases datasets cur i (v, g) = (.ok p, (v', g1)) ∧
        Within datasets.flatten.length g g1 ∧ (i = cur → p = v) := by
      unfold proposeOne
      by_cases hi : i = cur
      · rw [if_pos (by simp [sameInt, hi, hc])]
        exact ⟨v, v, g, rfl, Within.refl _ g, fun _ => rfl⟩
      · rw [if_neg (by simp [sameInt, hi])]
        obtain ⟨p, v', g1, h1, h2⟩ := proposalExisting_total h hl (hr v (by simp)).1 (hr v (by simp)).2
          (hd 0 v rfl (by simpa using hi)) g
        exact ⟨p, v', g1, h1, h2, fun e => absurd e hi⟩
    obtain ⟨ps, views', g2, h4, h5, h6⟩ := ih (i := i + 1) (fun v hv => hr v (by simp [hv]))
      (fun j v hj hij => hd (j + 1) v hj (by omega)) g1
    refine ⟨p :: ps, v' :: views', g2, ?_, (h2.trans h5).mono (by rw [List.length_cons]; linarith), fun j w hj hij => ?_⟩
    · unfold proposeFrom
      rw [h1]
      dsimp only
      rw [h4]
    · rcases j with _ | j
      · simp only [List.getElem?_cons_zero, Option.some.injEq] at hj ⊢
        rw [← hj]
        exact h3 (by simpa using hij)
      · exact h6 j w hj (by omega)

theorem singletons_total {Z : List Var} {X : RowId → Var → Option Val} {outs : List Var}
    {bases : List Prim} {datasets : List (List (RowId × Dict Var Val))}
    (h : Fed Z X outs bases datasets.flatten) (hl : Feeds bases datasets.flatten) (hne : outs ≠ [])
    (hn : outs.Nodup) {O : List Var} (hO : ∀ o ∈ outs, o ∈ O) {D : Nat} (hD : datasets.flatten.length ≤ D)
    (aux : Nat) (g : Rng) (hz : ∀ n < aux * (D + 1), drawnInt g n ∉ O) :
    ∃ ps g', singletons bases datasets aux g = (.ok ps, g') ∧ ∃ k ≤ aux * (D + 1), (∀ n, g' n = g (n + k)) ∧
      ∀ p ∈ ps, ∃ n < k, (cgpmI 2).outputs p = drawnInt g n :: outs := by
  induction aux generalizing g with
  | zero => exact ⟨[], g, rfl, 0, Nat.zero_le _, fun _ => rfl, by simp⟩
  | succ aux ih =>
    have hpos : 0 < (aux + 1) * (D + 1) := Nat.mul_pos (Nat.succ_pos _) (Nat.succ_pos _)
    obtain ⟨p, g1, h1, h2, h3⟩ := proposalSingleton_total h hl hne hn g
      (fun hc => hz 0 hpos (hO _ (drawnVar_eq g ▸ hc)))
    obtain ⟨j, hj, hj0, hg1⟩ : ∃ j ≤ D + 1, 0 < j ∧ ∀ n, g1 n = g (n + j) := by
      obtain ⟨j, hj, hg⟩ := h2
      exact ⟨j + 1, by omega, by omega, fun n => hg n⟩
    have hd : ∀ n, drawnInt g1 n = drawnInt g (n + j) := fun n => by unfold drawnInt; rw [hg1]
    have hlt : ∀ n < aux * (D + 1), n + j < (aux + 1) * (D + 1) := fun n hn => by
      rw [Nat.add_mul]; omega
    obtain ⟨ps, g2, h4, k, hk, h5, h6⟩ := ih g1 fun n hn => by rw [hd]; exact hz _ (hlt n hn)
    refine ⟨p :: ps, g2, ?_, k + j, by rw [Nat.add_mul]; omega, fun n => by rw [h5, hg1, Nat.add_assoc], fun q hq => ?_⟩
    · unfold singletons
      rw [Py.bind_apply, h1]
      dsimp only
      rw [Py.bind_apply, h4]
      rfl
    · rcases List.mem_cons.1 hq with rfl | hq
      · exact ⟨0, by omega, by rw [h3, drawnVar_eq]⟩
      · obtain ⟨n, hn, h7⟩ := h6 q hq
        exact ⟨n + j, by omega, by rw [h7, hd]⟩

theorem outputs_disjoint {Z : List Var} {x : Crosscat} (h : CC Z x) {outs : List Var} (hn : outs.Nodup)
    {k : Nat} {v : View} (hk : x.cgpms[k]? = some v) (ho : ∀ o ∈ outs, o ∈ viewColumns v) {j : Nat} {u : View}
    (hj : x.cgpms[j]? = some u) (hjk : j ≠ k) : ((cgpmI 2).outputs u ++ outs).Nodup := by
  rw [List.nodup_append]
  refine ⟨(cgpmTLaws Z 2).nodup _ (h.viewReg (List.mem_of_getElem? hj)), hn, fun a ha b hb e => ?_⟩
  subst e
  exact hjk (index_unique h.nodup hj hk ha (columns_sub (ho a hb)))

/-- A bound on the draws for the proposals. -/
def draws (x : Crosscat) (outs : List Var) (rows : List RowId) (aux : Nat) : Nat :=
  x.cgpms.length * (outs.length * rows.length) + aux * (outs.length * rows.length + 1)

/-- The proposals can be made. -/
theorem proposals_total {Z : List Var} {x : Crosscat} (h : CC Z x) {outs : List Var} (hne : outs ≠ [])
    (hn : outs.Nodup) {k : Nat} {v : View} (hk : x.cgpms[k]? = some v) (ho : ∀ o ∈ outs, o ∈ viewColumns v)
    (hk256 : k ≤ 256) {rows : List RowId}
    (hrows : ∀ o ∈ outs, ∀ r, (cgpmTab Z 3).cell (whole x) r o ≠ none → r ∈ rows) (aux : Nat) (g : Rng)
    (hz : ∀ n < draws x outs rows aux, drawnInt g n ∉ (cgpmI 3).outputs (whole x)) :
    ∃ ps x1 g', proposals outs aux (x, g) = (.ok ps, (x1, g')) ∧ ps[k]? = some v ∧
      ∃ i ≤ draws x outs rows aux, (∀ n, g' n = g (n + i)) ∧ ∀ (j : Nat) p, ps[j]? = some p → x.cgpms.length ≤ j →
        ∃ n < i, (cgpmI 2).outputs p = drawnInt g n :: outs := by
  have hcol : ∀ o ∈ outs, o ∈ columns x := fun o h' => mem_columns.2 ⟨v, List.mem_of_getElem? hk, ho o h'⟩
  have hvi := viewIndex_total h hne hk ho
  obtain ⟨bases, ds, hb, hfe⟩ := basesOf_total h hcol hn
  have hfed := basesOf_ok h hcol hb
  obtain ⟨ps, views', g1, e1, e2, e3⟩ := proposeFrom_total hfed hfe hk256 (views := x.cgpms) (i := 0) h.all
    (fun j u hj hjk => outputs_disjoint h hn hk ho hj (by omega)) g
  obtain ⟨a1, a2, a3⟩ := proposeFrom_ok hfed h.all e1
  obtain ⟨hs, hal⟩ := kept_same h (h.valued hcol) a1
  have hcol' : ∀ o ∈ outs, o ∈ columns ⟨views'⟩ := fun o h' => hal.columns ▸ hcol o h'
  obtain ⟨bases', ds', hb', hfe'⟩ := basesOf_total hs.cc hcol' hn
  have hfed' := basesOf_ok hs.cc hcol' hb'
  have hD := feds_length hfed hfe hrows
  have hD' := feds_length hfed' hfe' (rows := rows) fun o h' r hc => hrows o h' r (by rwa [hs.cell r o (hcol' o h')] at hc)
  have e2' : Within (x.cgpms.length * (outs.length * rows.length)) g g1 := e2.mono (Nat.mul_le_mul_left _ hD)
  obtain ⟨i, hi, hgi⟩ := e2'
  have hdr : ∀ n, drawnInt g1 n = drawnInt g (n + i) := fun n => by unfold drawnInt; rw [hgi]
  have hlt : ∀ n < aux * (outs.length * rows.length + 1), n + i < draws x outs rows aux := fun n hn => by
    unfold draws; omega
  obtain ⟨qs, g2, e4, i', hi', e5, e6⟩ := singletons_total hfed' hfe' hne hn (O := (cgpmI 3).outputs (whole x))
    (fun o h' => h.mem_outputs (hcol o h')) hD' aux g1 fun n hn => by rw [hdr]; exact hz _ (hlt n hn)
  have r1 : proposalsExisting outs (x, g) = (.ok ps, (⟨views'⟩, g1)) := by
    unfold proposalsExisting
    rw [Py.get_bind]
    dsimp only
    rw [hvi, Py.lift_bind]
    dsimp only
    rw [hb, Py.lift_bind]
    dsimp only
    unfold onViews
    dsimp only
    rw [e1]
  have r2 : proposalsSingleton outs aux (⟨views'⟩, g1) = (.ok qs, (⟨views'⟩, g2)) := by
    unfold proposalsSingleton
    rw [Py.get_bind]
    dsimp only
    rw [hb', Py.lift_bind]
    dsimp only
    unfold Py.onSnd
    dsimp only
    rw [e4]
  have hlen : k < x.cgpms.length := (List.getElem?_eq_some_iff.1 hk).1
  refine ⟨ps ++ qs, ⟨views'⟩, g2, ?_, ?_, i' + i, by unfold draws; omega,
    fun n => by rw [e5, hgi, Nat.add_assoc], fun j p hj hle => ?_⟩
  · unfold proposals
    rw [Py.bind_apply, r1]
    dsimp only
    rw [Py.bind_apply, r2]
    rfl
  · rw [List.getElem?_append_left (by omega)]
    exact e3 k v hk (by omega)
  · rw [List.getElem?_append_right (by omega)] at hj
    obtain ⟨n, hn, h7⟩ := e6 p (List.mem_of_getElem? hj)
    exact ⟨n + i, by omega, by rw [h7, hdr]⟩

theorem sumLogp_total {Z : List Var} {v : View} (h : (cgpmTab Z 2).Reg v) {outs : List Var}
    (ho : ∀ o ∈ outs, o ∈ (cgpmI 2).outputs v) :
    ∃ y, (do
      let l ← outs.mapM fun output => dataLogp v output
      pure (Fl.sum l) : Except Err Fl) = .ok y ∧ ∃ a : ℝ, y = .fin a := by
  obtain ⟨l, h1, h2⟩ := mapM_total (l := outs) (f := fun output => dataLogp v output)
    (P := fun y => ∃ a : ℝ, y = .fin a) (fun o h' => by
      obtain ⟨a, ha⟩ := dataLogp_fin h (ho o h')
      exact ⟨_, ha, a, rfl⟩)
  obtain ⟨a, ha⟩ := (Fl.sum_fin_iff l).2 h2
  refine ⟨Fl.sum l, ?_, a, ha⟩
  rw [h1]
  rfl

theorem settle_run {x x' : Crosscat} {outs : List Var} {ps : List View} {cur sam : Nat} {v0 T : View}
    (h0 : x.cgpms[cur]? = some v0) (h1 : ps[sam]? = some T)
    (h : cur = sam ∨ (cur ≠ sam ∧
      ∃ v0' y1 y2, outs.foldlM (removeCgpm 2) v0 = .ok v0' ∧ dropView x v0 = .ok y1 ∧
        restore y1 v0' = .ok y2 ∧ ((x.cgpms.length ≤ sam ∧ putView y2 T = .ok x') ∨
          (sam < x.cgpms.length ∧ ∃ u1 y3, x.cgpms[sam]? = some u1 ∧
            ((cgpmI 2).outputs u1).headD 0 = ((cgpmI 2).outputs T).headD 0 ∧ dropView y2 u1 = .ok y3 ∧
            putView y3 T = .ok x')))) :
    settle x outs ps cur sam = .ok (if cur = sam then x else x') := by
  unfold settle
  rw [show item x.cgpms cur = .ok v0 by unfold item; rw [h0]]
  change (item ps sam >>= _) = _
  rw [show item ps sam = .ok T by unfold item; rw [h1]]
  change (if cur = sam then _ else _) = _
  rcases h with h | ⟨hcs, v0', y1, y2, k1, k2, k3, h⟩
  · rw [if_pos h, if_pos h]; rfl
  · rw [if_neg hcs, if_neg hcs, k1]
    change (dropView x v0 >>= _) = _
    rw [k2]
    change (restore y1 v0' >>= _) = _
    rw [k3]
    change (if x.cgpms.length ≤ sam then _ else _) = _
    rcases h with ⟨h, k4⟩ | ⟨h, u1, y3, k4, k5, k6, k7⟩
    · rw [if_pos h]; exact k4
    · rw [if_neg (by omega), show item x.cgpms sam = .ok u1 by unfold item; rw [k4]]
      change (if ((cgpmI 2).outputs u1).headD 0 ≠ ((cgpmI 2).outputs T).headD 0 then _ else _) = _
      rw [if_neg (not_not.2 k5)]
      rw [k6]
      exact k7

/-- A Gibbs step on the view of columns succeeds unless a variable drawn is in use. -/
theorem transition_total {Z : List Var} {x : Crosscat} (h : CC Z x) {outs : List Var} (hne : outs ≠ [])
    (hn : outs.Nodup) {k : Nat} {v : View} (hk : x.cgpms[k]? = some v) (ho : ∀ o ∈ outs, o ∈ viewColumns v)
    (hk256 : k ≤ 256) {rows : List RowId}
    (hrows : ∀ o ∈ outs, ∀ r, (cgpmTab Z 3).cell (whole x) r o ≠ none → r ∈ rows) (aux : Nat) (g : Rng)
    (hz : ∀ n < draws x outs rows aux, drawnInt g n ∉ (cgpmI 3).outputs (whole x)) :
    ∃ x' x'' g', transitionViewAssignments outs aux (x, g) = (.ok x', (x'', g')) ∧
      ∃ i ≤ draws x outs rows aux + 1, (∀ n, g' n = g (n + i)) ∧ ∀ a ∈ (cgpmI 3).outputs (whole x'),
        a ∈ (cgpmI 3).outputs (whole x) ∨ ∃ n < i, a = drawnInt g n := by
  have hcol : ∀ o ∈ outs, o ∈ columns x := fun o h' => mem_columns.2 ⟨v, List.mem_of_getElem? hk, ho o h'⟩
  obtain ⟨ps, x1, g1, e1, e3, i, hi, e2, e4'⟩ := proposals_total h hne hn hk ho hk256 hrows aux g hz
  have e4 : ∀ (j : Nat) p, ps[j]? = some p → x.cgpms.length ≤ j →
      ∃ z, z ∉ (cgpmI 3).outputs (whole x) ∧ (cgpmI 2).outputs p = z :: outs := fun j p hj hle => by
    obtain ⟨n, hn, h7⟩ := e4' j p hj hle
    exact ⟨_, hz n (by omega), h7⟩
  obtain ⟨hs, hal, cur, hcur, hex, hsi⟩ := proposals_ok h hne hcol e1
  have hkc : cur = k := by
    have := viewIndex_total h hne hk ho
    rw [hcur] at this
    exact Except.ok.inj this
  subst hkc
  have hlen : x1.cgpms.length = x.cgpms.length := by
    have := congrArg List.length hal
    simpa using this.symm
  obtain ⟨v1, hv1, hv1o⟩ : ∃ u, x1.cgpms[cur]? = some u ∧ (cgpmI 2).outputs u = (cgpmI 2).outputs v := by
    have := congrArg (fun l => l[cur]?) hal
    simp only [List.getElem?_map, hk, Option.map_some] at this
    rcases hw : x1.cgpms[cur]? with _ | u
    · rw [hw] at this; cases this
    · rw [hw] at this
      exact ⟨u, rfl, (Option.some.inj this).symm⟩
  have ho1 : ∀ o ∈ outs, o ∈ viewColumns v1 := fun o h' => by
    unfold viewColumns
    rw [hv1o]
    exact ho o h'
  have hcur1 := viewIndex_total hs.cc hne hv1 ho1
  have hreg : ∀ p ∈ ps, ∃ Z', (cgpmTab Z' 2).Reg p ∧ ∀ o ∈ outs, o ∈ (cgpmI 2).outputs p := by
    intro p hp
    obtain ⟨j, hj⟩ := List.mem_iff_getElem?.1 hp
    by_cases hjl : j < x.cgpms.length
    · by_cases hjc : j = cur
      · subst hjc
        rw [e3] at hj
        cases hj
        exact ⟨Z, h.viewReg (List.mem_of_getElem? hk), fun o h' => columns_sub (ho o h')⟩
      · obtain ⟨u, hu, hp⟩ := hex j p hj hjl hjc
        exact ⟨Z, hp.reg, fun o h' => by rw [hp.out]; exact List.mem_append_right _ h'⟩
    · obtain ⟨z, hz1, hz2⟩ := hsi j p hj (by omega)
      obtain ⟨z', hz3, hz4⟩ := e4 j p hj (by omega)
      rw [hz1] at hz4
      injection hz4 with hzz
      subst hzz
      have hzo : z ∉ outs := fun hc => hz3 (h.mem_outputs (hcol z hc))
      exact ⟨z :: Z, (hz2 hzo).reg, fun o h' => by rw [hz1]; exact List.mem_cons_of_mem _ h'⟩
  obtain ⟨logps, l1, l2⟩ := mapM_total (l := ps) (P := fun y => ∃ a : ℝ, y = .fin a)
    (f := fun view => (do
      let l ← outs.mapM fun output => dataLogp view output
      pure (Fl.sum l) : Except Err Fl)) (fun p hp => by
      obtain ⟨Z', r1, r2⟩ := hreg p hp
      exact sumLogp_total r1 r2)
  have hpl : logps.length = ps.length := (mapM_ok_forall l1).length_eq.symm
  have hpsne : ps ≠ [] := by rintro rfl; simp at e3
  have hlne : logps ≠ [] := by
    intro e
    rw [e] at hpl
    exact hpsne (List.length_eq_zero_iff.1 hpl.symm)
  obtain ⟨sam, g2, f1, f2, -⟩ := logPflipIdx_ok logps hlne (fun y hy => by
      obtain ⟨a, rfl⟩ := l2 y hy
      trivial) (by
      refine List.sum_pos _ (fun p hp => ?_) (by simpa using hlne)
      obtain ⟨y, hy, rfl⟩ := List.mem_map.1 hp
      obtain ⟨a, rfl⟩ := l2 y hy
      exact Real.exp_pos a) g1
  have f3 := logPflip_within logps g1
  rw [f1] at f3
  have hout : (cgpmI 3).outputs (whole x1) = (cgpmI 3).outputs (whole x) := (flatMap_of_map hal).symm
  have hset : ∃ x', settle x1 outs ps cur sam = .ok x' ∧
      ∀ a ∈ (cgpmI 3).outputs (whole x'), a ∈ (cgpmI 3).outputs (whole x) ∨ ∃ n < i, a = drawnInt g n := by
    obtain ⟨T, hT⟩ : ∃ T, ps[sam]? = some T := ⟨ps[sam]'(by omega), List.getElem?_eq_getElem _⟩
    by_cases hcs : cur = sam
    · exact ⟨_, settle_run (x' := x1) hv1 hT (.inl hcs), fun a ha => by
        rw [if_pos hcs, hout] at ha; exact .inl ha⟩
    have m1 := List.mem_of_getElem? hv1
    obtain ⟨v0', y1, y2, k1, k2, k3, k4, k5, k6, k7⟩ := leave_total hs.cc m1 ho1
    have hTi : (cgpmI 2).inputs T = [] := by
      obtain ⟨Z', r1, -⟩ := hreg T (List.mem_of_getElem? hT)
      exact (cgpmTLaws Z' 2).inputs _ r1
    by_cases hl : x1.cgpms.length ≤ sam
    · obtain ⟨n, hn', hz4⟩ := e4' sam T hT (by omega)
      have hz3 := hz n (by omega)
      obtain ⟨x', k8⟩ := new_total k4 k5 (fun a ha => (k6 a ha).2) (T := T) (z := drawnInt g n)
        (fun hc => hz3 (by rw [← hout]; exact (k6 _ hc).1))
        (fun hc => hz3 (h.mem_outputs (hcol _ hc))) hz4 hn hTi
      refine ⟨_, settle_run (x' := x') hv1 hT (.inr ⟨hcs, v0', y1, y2, k1, k2, k3, .inl ⟨hl, k8⟩⟩), fun a ha => ?_⟩
      rw [if_neg hcs] at ha
      change a ∈ x'.cgpms.flatMap (cgpmI 2).outputs at ha
      rw [(putView_ok k8).1, List.flatMap_append, List.flatMap_singleton, hz4, List.mem_append, List.mem_cons] at ha
      rcases ha with ha | ha | ha
      · exact .inl (by rw [← hout]; exact (k6 a ha).1)
      · exact .inr ⟨n, hn', ha⟩
      · exact .inl (h.mem_outputs (hcol a ha))
    · obtain ⟨w, hw, hp⟩ := hex sam T hT (by omega) (Ne.symm hcs)
      obtain ⟨u, hu, huo⟩ : ∃ u, x1.cgpms[sam]? = some u ∧ (cgpmI 2).outputs u = (cgpmI 2).outputs w := by
        have := congrArg (fun l => l[sam]?) hal
        simp only [List.getElem?_map, hw, Option.map_some] at this
        rcases hw : x1.cgpms[sam]? with _ | u
        · rw [hw] at this; cases this
        · rw [hw] at this
          exact ⟨u, rfl, (Option.some.inj this).symm⟩
      have mu := List.mem_of_getElem? hu
      have hne' : u ≠ v1 := by
        rintro rfl
        exact hcs (index_unique hs.cc.nodup hv1 hu (hs.cc.head_mem mu) (hs.cc.head_mem mu))
      obtain ⟨y3, x', k8, k9, k10⟩ := join_total k4 k5 (fun a ha => (k6 a ha).2) (u := u) (T := T) (k7 u mu hne') rfl
        (hs.cc.head_mem mu) (by rw [hp.out, huo]) hn hTi
      refine ⟨_, settle_run (x' := x') hv1 hT (.inr ⟨hcs, v0', y1, y2, k1, k2, k3, .inr ⟨by omega, u, y3, hu, ?_, k8, k9⟩⟩),
        fun a ha => ?_⟩
      swap
      · rw [if_neg hcs] at ha
        rcases k10 a ha with ha | ha
        · exact .inl (by rw [← hout]; exact (k6 a ha).1)
        · exact .inl (h.mem_outputs (hcol a ha))
      have hne0 : (cgpmI 2).outputs u ≠ [] := (cgpmFrame Z 2).some u (hs.cc.viewReg mu)
      rw [hp.out, ← huo]
      rcases hu0 : (cgpmI 2).outputs u with _ | ⟨a, l⟩
      · exact absurd hu0 hne0
      · rfl
  obtain ⟨x', hx', hx2⟩ := hset
  obtain ⟨j, hj, (f3 : ∀ n, g2 n = g1 (n + j))⟩ := f3
  refine ⟨x', x1, g2, ?_, j + i, by omega, fun n => by rw [f3, e2, Nat.add_assoc], fun a ha => ?_⟩
  swap
  · rcases hx2 a ha with ha | ⟨n, hn, ha⟩
    · exact .inl ha
    · exact .inr ⟨n, by omega, ha⟩
  unfold transitionViewAssignments
  rw [Py.bind_apply, e1]
  dsimp only
  rw [l1, Py.lift_bind]
  dsimp only
  rw [Py.get_bind]
  dsimp only
  rw [hcur1, Py.lift_bind]
  dsimp only
  rw [Py.bind_apply]
  simp only [Py.onSnd, f1]
  rw [hx']
  rfl

end Cgpm2.Views
