import Verif.Lemmas.LifeInit
import Verif.Lemmas.ObserveTotal
import Verif.Lemmas.Clusterings
import Verif.Lemmas.RowLaw
import Verif.Spec.Conversion
import Verif.Props.Render
import Verif.Props.Table

/-!
# Converting a state of cgpm (helpers)
-/

namespace Cgpm2.Conversion
open Spec Views Ensemble

/-! ## Primitives -/

theorem hyper_pos {d : Dim} (h : ∀ n x, Dict.get? d.hypers n = some x → n ≠ "m" → 0 < x) {n : String} (hn : n ≠ "m") :
    0 < (Dict.get? d.hypers n).getD 1 := by
  rcases hx : Dict.get? d.hypers n with _ | x
  · exact one_pos
  · exact h n x hx hn

theorem dataDim_ok {d : Dim} (h : DataDim d) : ∃ p, convertDim d = .ok p ∧ LegallyReachable p ∧ p.inputs = [] ∧
    p.data = [] ∧ p.kind ≠ .crp ∧ OfDim d p ∧ primAst p = Dim.ast d := by
  obtain ⟨o, ho⟩ := h.one
  obtain ⟨ct, outs, hy, k⟩ := d
  dsimp only at ho
  subst ho
  have hp := fun n hn => hyper_pos (d := ⟨ct, [o], hy, k⟩) h.positive (n := n) hn
  dsimp only at hp
  rcases h.type with e | e | ⟨e, k', e', hk⟩ <;> dsimp only at e <;> subst e
  · have hin : Normal.init [o] [] hy [] = .ok ⟨[o], [], [], [], 0, 0, 0, (Dict.get? hy "m").getD 0,
        (Dict.get? hy "r").getD 1, (Dict.get? hy "s").getD 1, (Dict.get? hy "nu").getD 1⟩ := by
      unfold Normal.init
      exact if_pos ⟨hp "s" (by decide), hp "r" (by decide), hp "nu" (by decide)⟩
    refine ⟨.normal _, ?_, ⟨_, [], .normal hin, ?_, rfl⟩, rfl, rfl, nofun, ⟨rfl, rfl, ?_⟩, ?_⟩
    · change (Normal.init [o] [] hy []).map Prim.normal = _
      rw [hin]; rfl
    · exact ⟨hp "r" (by decide), hp "s" (by decide), hp "nu" (by decide)⟩
    · simp [Prim.getHypers, Normal.getHypers, Prim.kind, hyperNames, Dim.hyper]
    · simp [primAst, className, distargsK, Prim.getHypers, Normal.getHypers, Dim.ast, Dim.hyper]
  · have hin : Poisson.init [o] [] hy [] = .ok ⟨[o], [], [], [], 0, 0, 0,
        (Dict.get? hy "a").getD 1, (Dict.get? hy "b").getD 1⟩ := by
      unfold Poisson.init
      exact if_pos ⟨hp "a" (by decide), hp "b" (by decide)⟩
    refine ⟨.poisson _, ?_, ⟨_, [], .poisson hin, ?_, rfl⟩, rfl, rfl, nofun, ⟨rfl, rfl, ?_⟩, ?_⟩
    · change (Poisson.init [o] [] hy []).map Prim.poisson = _
      rw [hin]; rfl
    · exact ⟨hp "a" (by decide), hp "b" (by decide)⟩
    · simp [Prim.getHypers, Poisson.getHypers, Prim.kind, hyperNames, Dim.hyper]
    · simp [primAst, className, distargsK, Prim.getHypers, Poisson.getHypers, Dim.ast, Dim.hyper]
  · dsimp only at e'
    subst e'
    refine ⟨.categorical (Categorical.init [o] [] hy [] k'), rfl, ⟨_, [], .categorical .., ?_, rfl⟩, rfl, rfl, nofun,
      ⟨rfl, ⟨rfl, rfl⟩, ?_⟩, ?_⟩
    · exact ⟨hp "alpha" (by decide), hk⟩
    · simp [Prim.getHypers, Categorical.getHypers, Prim.kind, hyperNames, Dim.hyper, Categorical.init]
    · simp [primAst, className, distargsK, Prim.getHypers, Categorical.getHypers, Dim.ast, Dim.hyper, Categorical.init]

theorem rowsDim_ok {d : Dim} (h : RowsDim d) {z : Var} (hz : d.outputs = [z]) :
    convertDim d = .ok (.crp (Crp.init [z] [] d.hypers [])) ∧
    LegallyReachable (.crp (Crp.init [z] [] d.hypers [])) ∧ OfDim d (.crp (Crp.init [z] [] d.hypers [])) ∧
    primAst (.crp (Crp.init [z] [] d.hypers [])) = Dim.ast d := by
  obtain ⟨ct, outs, hy, k⟩ := d
  have e := h.type
  dsimp only at hz e
  subst hz e
  refine ⟨rfl, ⟨_, [], .crp .., ?_, rfl⟩, ⟨rfl, rfl, ?_⟩, ?_⟩
  · change 0 < (Dict.get? hy "alpha").getD 1
    rcases hx : Dict.get? hy "alpha" with _ | x
    · exact one_pos
    · exact h.positive x hx
  · simp [Prim.getHypers, Crp.getHypers, Prim.kind, hyperNames, Dim.hyper, Crp.init]
  · simp [primAst, className, distargsK, Prim.getHypers, Crp.getHypers, Dim.ast, Dim.hyper, Crp.init]

theorem ofDim_same {d : Dim} {p q : Prim} (h : OfDim d p) (e : SameModel p q) : OfDim d q := by
  obtain ⟨h1, h2, h3⟩ := h
  cases p <;> cases q <;> first | exact e.elim | skip
  · obtain ⟨e1, e2⟩ := e
    refine ⟨e1.symm.trans h1, h2, ?_⟩
    refine Eq.trans ?_ h3; simp [Prim.getHypers, Crp.getHypers, e2]
  · obtain ⟨e1, e2, e3⟩ := e
    refine ⟨e1.symm.trans h1, ⟨h2.1, h2.2.trans (congrArg some e3)⟩, ?_⟩
    refine Eq.trans ?_ h3; simp [Prim.getHypers, Categorical.getHypers, e2]
  · obtain ⟨e1, e2, e3⟩ := e
    refine ⟨e1.symm.trans h1, h2, ?_⟩
    refine Eq.trans ?_ h3; simp [Prim.getHypers, Bernoulli.getHypers, e2, e3]
  · obtain ⟨e1, e2, e3, e4, e5⟩ := e
    refine ⟨e1.symm.trans h1, h2, ?_⟩
    refine Eq.trans ?_ h3; simp [Prim.getHypers, Normal.getHypers, e2, e3, e4, e5]
  · exact h2.elim
  · obtain ⟨e1, e2, e3⟩ := e
    refine ⟨e1.symm.trans h1, h2, ?_⟩
    refine Eq.trans ?_ h3; simp [Prim.getHypers, Poisson.getHypers, e2, e3]

/-! ## A view without rows -/

/-- The row mixture that `convert_view_to_rowmixture` makes before it observes rows. -/
noncomputable def freshMix (z : Var) (hy : Dict String ℝ) (ps : List Prim) : FlexMix (Node Prim) :=
  ⟨.crp (Crp.init [z] [] hy []), FlexArray.init (.product ⟨ps⟩ : Node Prim) z, []⟩

theorem freshMix_tidy {Z : List Var} {z : Var} {hy : Dict String ℝ} {ps : List Prim} (hz : z ∈ Z) (hne : ps ≠ [])
    (hd : LegallyReachable (.crp (Crp.init [z] [] hy [])))
    (hps : ∀ p ∈ ps, LegallyReachable p ∧ p.inputs = [] ∧ p.data = [] ∧ p.kind ≠ .crp)
    (hn : (ps.flatMap Prim.outputs).Nodup) (ho : ∀ v ∈ ps.flatMap Prim.outputs, v ∉ Z) :
    Tidy Z 2 (.flexMix (freshMix z hy ps) : Node (Node Prim)) ∧
    (∀ r v, (cgpmTab Z 2).cell (.flexMix (freshMix z hy ps) : Node (Node Prim)) r v = none) ∧
    Product.init primI ps = .ok ⟨ps⟩ := by
  have hp0 : ∀ p ∈ ps, Tidy Z 0 (p : Prim) := by
    intro p hp
    obtain ⟨h1, h2, h3, h4⟩ := hps p hp
    exact .prim0 h1 h2 fun v hv => ⟨fun h => absurd h (ho v (List.mem_flatMap.2 ⟨p, hp, hv⟩)), fun h => absurd h h4⟩
  have hi : Product.init primI ps = .ok ⟨ps⟩ := by
    unfold Product.init
    rw [validate_of_nodup (I := primI) (fun c hc => (hps c hc).2.1) hn]
    rfl
  have hb : Tidy Z 1 (.product ⟨ps⟩ : Node Prim) := .product (n := 0) (cs := ps) hp0 hne hi
  have hf : ∀ r, (cgpmTab Z 1).Fresh (.product ⟨ps⟩ : Node Prim) r := by
    intro r v
    refine ProdTab.cell_none_iff.2 fun p hp => ?_
    change (primTab Z).cell p r v = none
    simp [primTab, (hps p hp).2.2.1]
  have hbe : ∀ r, HoldsNothing (cgpmI 1) (.product ⟨ps⟩ : Node Prim) r := fun r =>
    (holdsNothing_iff (cgpmTLaws Z 1) (tidy_reg hb) r).2 (hf r)
  have ht : Tidy Z 2 (.flexMix (freshMix z hy ps) : Node (Node Prim)) := by
    refine .flexMix (n := 1) (d := .crp (Crp.init [z] [] hy [])) (b := (.product ⟨ps⟩ : Node Prim))
      hd rfl (.inl rfl) ?_ rfl hb hbe ?_ ?_ rfl
    · intro v hv
      have hv : v ∈ [z] := hv
      rw [List.mem_singleton.1 hv]; exact hz
    · refine (cgpmFrame Z 1).zero _ (tidy_reg hb) hf ?_
      refine (sumScore_fin_iff primI.logpdfScore ps).2 fun p hp => ?_
      have hr := tidy_reg (hp0 p hp)
      exact ⟨_, Prim.logpdfScore_eq hr.1.1 hr.1.2⟩
    · intro v hv hv'
      have hv : v ∈ [z] := hv
      have hv' : v ∈ ps.flatMap Prim.outputs := hv'
      rw [List.mem_singleton.1 hv] at hv'
      exact ho z hv' hz
  refine ⟨ht, fun r v => ?_, hi⟩
  change (if v = _ then Dict.get? [] r else (Dict.get? [] r).bind _) = none
  simp [Dict.get?]

/-! ## Observing the rows -/

theorem cellsOf_ok {X : Dict Var (Dict RowId Val)} {cols : List Var} {r : RowId}
    (h : ∀ c ∈ cols, ∃ x, ((Dict.get? X c).bind fun column => Dict.get? column r) = some x) :
    ∃ o, cellsOf X cols r = .ok o ∧ Dict.keys o = cols ∧
      ∀ c ∈ cols, Dict.get? o c = (Dict.get? X c).bind fun column => Dict.get? column r := by
  refine ⟨_, mapM_ok_map _ (fun c => (c, (((Dict.get? X c).bind fun column => Dict.get? column r).getD .nan))) cols ?_,
    by simp [Dict.keys, List.map_map, Function.comp_def], ?_⟩
  · intro c hc
    obtain ⟨x, hx⟩ := h c hc
    rcases h1 : Dict.get? X c with _ | col
    · rw [h1] at hx; cases hx
    · rw [h1] at hx
      rw [Option.bind_some] at hx
      rw [Dict.getItem_ok h1]
      change (Dict.getItem col r >>= _) = _
      rw [Dict.getItem_ok hx]
      simp only [Option.bind_some, hx, Option.getD_some]
      rfl
  · intro c hc
    obtain ⟨x, hx⟩ := h c hc
    rw [hx]
    clear h
    induction cols with
    | nil => cases hc
    | cons a cols ih =>
      rw [List.map_cons, Dict.get?]
      by_cases ha : a = c
      · rw [if_pos ha, ha, hx]; rfl
      · rw [if_neg ha]
        exact ih ((List.mem_cons.1 hc).resolve_left (Ne.symm ha))

/-- What is known while rows are observed. -/
structure Progress (Z : List Var) (z : Var) (ps l : List Prim) (m : FlexMix (Cgpm 1)) : Prop where
  tidy : Tidy Z 2 (.flexMix m : Node (Cgpm 1))
  base : m.array.base = (.product ⟨ps⟩ : Node (Cgpm 0))
  kept : KeptView l (.flexMix m : Node (Cgpm 1))
  index : m.indexer = z

theorem Progress.flat {Z : List Var} {z : Var} {ps l : List Prim} {m : FlexMix (Cgpm 1)} (h : Progress Z z ps l m)
    (hk : m.rowDivide.kind = .crp) : Flat (.flexMix m : Node (Cgpm 1)) m ⟨ps⟩ := by
  obtain ⟨m', p', hf⟩ := flat_of_reg (tidy_reg h.tidy) ⟨m, ⟨ps⟩, rfl, hk, h.base⟩
  obtain rfl : m = m' := by have := hf.eq; injection this
  obtain rfl : ⟨ps⟩ = p' := by have := h.base.symm.trans hf.base; injection this
  exact hf

theorem rows_go {Z : List Var} {z : Var} (hz : z ∈ Z) {ps l : List Prim} {X : Dict Var (Dict RowId Val)}
    (hcols : ∀ c ∈ ps.flatMap Prim.outputs, c ∉ Z) (hnd : (ps.flatMap Prim.outputs).Nodup)
    (hk : ∀ p ∈ ps, p.kind ≠ .crp) {c' : Crp} (rows : List (RowId × Int)) :
    ∀ {m : FlexMix (Cgpm 1)} {c : Crp} (_ : Progress Z z ps l m) (_ : m.rowDivide = .crp c)
      (_ : seat z rows c = (.ok (), c')) (_ : (Dict.keys rows).Nodup)
      (_ : ∀ r ∈ Dict.keys rows, ∀ v, (cgpmTab Z 2).cell (.flexMix m : Node (Cgpm 1)) r v = none)
      (_ : ∀ r ∈ Dict.keys rows, ∀ p ∈ ps, ∀ a, p.outputs = [a] → ∃ x,
        ((Dict.get? X a).bind fun column => Dict.get? column r) = some x ∧ p.Legal x) (g : Rng),
      ∃ m', observeRows z (ps.flatMap Prim.outputs) X rows ((.flexMix m : Node (Cgpm 1)), g) =
          (.ok (), ((.flexMix m' : Node (Cgpm 1)), g)) ∧
        Progress Z z ps l m' ∧ m'.rowDivide = .crp c' ∧
        ∀ r, ∀ a ∈ ps.flatMap Prim.outputs, (cgpmTab Z 2).cell (.flexMix m' : Node (Cgpm 1)) r a =
          if r ∈ Dict.keys rows then (Dict.get? X a).bind fun column => Dict.get? column r
          else (cgpmTab Z 2).cell (.flexMix m : Node (Cgpm 1)) r a := by
  induction rows with
  | nil =>
    intro m c hP hd hs _ _ _ g
    have : c = c' := (Prod.ext_iff.1 hs).2
    subst this
    exact ⟨m, rfl, hP, hd, by simp [Dict.keys]⟩
  | cons rt rows ih =>
    obtain ⟨r, t⟩ := rt
    intro m c hP hd hs hn hfree hx g
    have hn : (r :: Dict.keys rows).Nodup := hn
    have hfree : ∀ r' ∈ r :: Dict.keys rows, ∀ v, (cgpmTab Z 2).cell (.flexMix m : Node (Cgpm 1)) r' v = none := hfree
    have hx : ∀ r' ∈ r :: Dict.keys rows, ∀ p ∈ ps, ∀ a, p.outputs = [a] → ∃ x,
        ((Dict.get? X a).bind fun column => Dict.get? column r') = some x ∧ p.Legal x := hx
    have hf := hP.flat (by rw [hd]; rfl)
    have hreg := tidy_reg hP.tidy
    have hm : MixReg _ _ _ _ _ _ _ m := hreg
    have hsingle : ∀ a ∈ ps.flatMap Prim.outputs, ∃ p ∈ ps, p.outputs = [a] := by
      intro a ha
      obtain ⟨p, hp, hap⟩ := List.mem_flatMap.1 ha
      obtain ⟨a', ha'⟩ := hf.single p hp
      have ha' : p.outputs = [a'] := ha'
      rw [ha', List.mem_singleton] at hap
      exact ⟨p, hp, by rw [hap, ha']⟩
    obtain ⟨ox, ho1, ho2, ho3⟩ := cellsOf_ok (X := X) (cols := ps.flatMap Prim.outputs) (r := r) (by
      intro a ha
      obtain ⟨p, hp, e⟩ := hsingle a ha
      obtain ⟨x, h1, -⟩ := hx r List.mem_cons_self p hp a e
      exact ⟨x, h1⟩)
    have hzc : z ∉ ps.flatMap Prim.outputs := fun h => hcols z h hz
    have hget : ∀ v, Dict.get? (merged [(z, .num (t : ℚ))] ox) v = if v = z then some (.num (t : ℚ)) else Dict.get? ox v := by
      intro v
      rw [get?_merged _ _ (by simp [Dict.keys]) (by rw [ho2]; exact hnd)]
      by_cases hv : v = z
      · subst hv
        have : Dict.get? ox v = none := by rw [Dict.get?_eq_none_iff, ho2]; exact hzc
        rw [this, if_pos rfl]
        simp [Dict.get?]
      · rw [if_neg hv]
        rcases Dict.get? ox v with _ | x
        · simp [Dict.get?, Ne.symm hv]
        · rfl
    -- The divider accepts the table.
    rw [seat] at hs
    obtain ⟨u, c1, hs1, hs2⟩ := run_bind hs
    have hout : c.outputs = [z] := by
      have := hf.out
      rw [hd, hP.index] at this; exact this
    rcases Crp.observe_cases hout r [(z, .num (t : ℚ))] [] with ⟨e, he⟩ | ⟨q, hq1, -, hq2, hq3, hq4⟩
    · rw [he] at hs1; cases hs1
    rw [hs1] at hq4
    cases hq1
    have hc1 : c1 = c.add r (truncate (t : ℚ)) := (Prod.ext_iff.1 hq4).2
    have hr : Dict.get? m.rowidToComponent r = none := by
      have := hfree r List.mem_cons_self m.indexer
      change (if m.indexer = m.indexer then Dict.get? m.rowidToComponent r else _) = none at this
      rwa [if_pos rfl] at this
    -- The component takes the cells.
    have houts : (flexArrayI (cgpmI 1)).outputs m.array = ps.flatMap Prim.outputs := by
      change (cgpmI 1).outputs m.array.base = _
      rw [hP.base]; rfl
    have honly : ∀ v, Dict.get? (only ((flexArrayI (cgpmI 1)).outputs m.array) (merged [(z, .num (t : ℚ))] ox)) v =
        if v ∈ ps.flatMap Prim.outputs then Dict.get? ox v else none := by
      intro v
      rw [get?_only, houts]
      split
      · rename_i h
        rw [hget, if_neg (by rintro rfl; exact hzc h)]
      · rfl
    obtain ⟨k', hk'⟩ := comp_takes (r := r) hf hreg
      (ob := only ((flexArrayI (cgpmI 1)).outputs m.array) (merged [(z, .num (t : ℚ))] ox))
      (nodup_only _ _ (nodup_merged _ _)) (by
        intro b hb a x ha hxa
        have ha' : a ∈ ps.flatMap Prim.outputs := List.mem_flatMap.2 ⟨b, hb, by rw [ha]; simp⟩
        rw [honly, if_pos ha', ho3 a ha'] at hxa
        obtain ⟨x', h1, h2⟩ := hx r List.mem_cons_self b hb a ha
        rw [h1] at hxa
        cases hxa
        exact ⟨hk b hb, h2⟩) (.num (t : ℚ)) (fun a x _ => hm.fresh r _ _ rfl (by rw [hr]; nofun) a) g
    have hobs := RowMix.observe_accept (flexArrLaws (cgpmLaws 1)) hm hr (o := merged [(z, .num (t : ℚ))] ox)
      (z := .num (t : ℚ)) (by rw [hget, hP.index, if_pos rfl]) (by rw [hd]; exact ⟨_, rfl, hq3⟩) rfl [] hk'
    have hobs2 : (cgpmI 2).observe r (merged [(z, .num (t : ℚ))] ox) [] ((.flexMix m : Node (Cgpm 1)), g) = _ :=
      inside_eq hobs
    have hwhole : WholeClusters Z (merged [(z, .num (t : ℚ))] ox) := by
      intro v hv x hvx
      rw [hget] at hvx
      split at hvx
      · cases hvx; exact ⟨t, rfl⟩
      · have := Dict.mem_keys_of_get? hvx
        rw [ho2] at this
        exact absurd hv (hcols v this)
    set m1 : FlexMix (Cgpm 1) := ⟨m.rowDivide.add r (.num (t : ℚ)), _, _⟩ with hm1
    have hP1 : Progress Z z ps l m1 := by
      refine ⟨.observe hP.tidy hwhole hobs2, hP.base, ?_, ?_⟩
      · have := stays_view_observe l r (merged [(z, .num (t : ℚ))] ox) [] _ g hP.kept
        rw [hobs2] at this
        exact this
      · change (m.rowDivide.add r (.num (t : ℚ))).outputs.headD 0 = z
        rw [hd]
        change c.outputs.headD 0 = z
        rw [hout]; rfl
    obtain ⟨-, -, -, hcell1, -, hcell2, -⟩ := (cgpmTLaws Z 2).observe _ r _ [] g _ g hreg hwhole hobs2
    obtain ⟨m', h1, h2, h3, h4⟩ := ih hP1 (c := c1) (by rw [hc1, hm1]; change m.rowDivide.add r (.num (t : ℚ)) = _; rw [hd]; rfl) hs2
      (List.nodup_cons.1 hn).2 (fun r' hr' v => by
        rw [hcell1 r' v (by rintro rfl; exact (List.nodup_cons.1 hn).1 hr')]
        exact hfree r' (List.mem_cons_of_mem _ hr') v)
      (fun r' hr' => hx r' (List.mem_cons_of_mem _ hr')) g
    refine ⟨m', ?_, h2, h3, fun r' a ha => ?_⟩
    · rw [observeRows, ho1]
      change ((cgpmI 2).observe r (merged [(z, .num (t : ℚ))] ox) [] >>= fun _ => observeRows z _ X rows) _ = _
      rw [Py.bind_apply, hobs2]
      exact h1
    · rw [h4 r' a ha]
      change _ = if r' ∈ r :: Dict.keys rows then _ else _
      by_cases hr' : r' = r
      · subst hr'
        rw [if_neg (List.nodup_cons.1 hn).1, if_pos List.mem_cons_self]
        obtain ⟨p, hp, e⟩ := hsingle a ha
        obtain ⟨x, hx1, -⟩ := hx r' List.mem_cons_self p hp a e
        rw [hx1]
        refine hcell2 a (by rw [hf.outputs]; exact List.mem_cons_of_mem _ ha) x (hfree r' List.mem_cons_self a) ?_
        rw [hget, if_neg (by rintro rfl; exact hzc ha), ho3 a ha, hx1]
      · simp only [List.mem_cons, hr', false_or]
        rw [hcell1 r' a hr']

theorem seat_kept {z : Var} (rows : List (RowId × Int)) : ∀ {c c' : Crp} (_ : c.outputs = [z])
    (_ : seat z rows c = (.ok (), c')), c'.outputs = [z] ∧ c'.alpha = c.alpha := by
  induction rows with
  | nil =>
    intro c c' hc h
    have : c = c' := (Prod.ext_iff.1 h).2
    subst this
    exact ⟨hc, rfl⟩
  | cons rt rows ih =>
    obtain ⟨r, t⟩ := rt
    intro c c' hc h
    rw [seat] at h
    obtain ⟨u, c1, h1, h2⟩ := run_bind h
    rcases Crp.observe_cases hc r [(z, .num (t : ℚ))] [] with ⟨e, he⟩ | ⟨q, hq1, -, hq2, hq3, hq4⟩
    · rw [he] at h1; cases h1
    rw [h1] at hq4
    have hc1 : c1 = c.add r (truncate q) := (Prod.ext_iff.1 hq4).2
    subst hc1
    exact ih (c := c.add r (truncate q)) hc h2

/-! ## A view -/

theorem dims_ok (dims : List Dim) (h : ∀ d ∈ dims, DataDim d) : ∃ ps, dims.mapM convertDim = .ok ps ∧
    List.Forall₂ (fun d p => LegallyReachable p ∧ p.inputs = [] ∧ p.data = [] ∧ p.kind ≠ .crp ∧ OfDim d p ∧
      primAst p = Dim.ast d) dims ps := by
  induction dims with
  | nil => exact ⟨[], rfl, .nil⟩
  | cons d dims ih =>
    obtain ⟨p, h1, h2⟩ := dataDim_ok (h d List.mem_cons_self)
    obtain ⟨ps, h3, h4⟩ := ih fun d hd => h d (List.mem_cons_of_mem _ hd)
    refine ⟨p :: ps, ?_, .cons h2 h4⟩
    rw [List.mapM_cons, h1]
    change (dims.mapM convertDim >>= _) = _
    rw [h3]; rfl

theorem outputs_dims {dims : List Dim} {ps : List Prim} {R : Dim → Prim → Prop}
    (h : List.Forall₂ R dims ps) (hR : ∀ d p, R d p → p.outputs = d.outputs) :
    ps.flatMap Prim.outputs = dims.flatMap Dim.outputs := by
  induction h with
  | nil => rfl
  | cons h _ ih => rw [List.flatMap_cons, List.flatMap_cons, ih, hR _ _ h]

theorem ast_dims {dims : List Dim} {ps : List Prim} {R : Dim → Prim → Prop}
    (h : List.Forall₂ R dims ps) (hR : ∀ d p, R d p → primAst p = Dim.ast d) :
    ps.map primAst = dims.map Dim.ast := by
  induction h with
  | nil => rfl
  | cons h _ ih => rw [List.map_cons, List.map_cons, ih, hR _ _ h]

theorem view_ok {unique : List Int → List Int} (hu : ∀ l, (unique l).Nodup ∧ ∀ t, t ∈ unique l ↔ t ∈ l)
    {Z : List Var} {s : SourceView} (h : SoundView s) (hn : (SourceView.vars s).Nodup)
    (hz : ∀ v ∈ s.crp.outputs, v ∈ Z) (ho : ∀ v ∈ s.dims.flatMap Dim.outputs, v ∉ Z) (g : Rng) :
    ∃ v, convertView unique s g = (.ok v, g) ∧ Tidy Z 2 v ∧ IsView v ∧ Says s v ∧
      convertToAst 2 v = .ok (.mixture (Dim.ast s.crp) (.list (s.dims.map Dim.ast))) := by
  obtain ⟨z, hzo⟩ := h.rowsDim.one
  obtain ⟨ps, hps, hF⟩ := dims_ok s.dims h.dims
  have hpr := fun p => forall₂_right (b := p) hF
  have houts := outputs_dims hF fun d p h => h.2.2.2.2.1.1
  have hast := ast_dims hF fun d p h => h.2.2.2.2.2
  obtain ⟨hd1, hd2, hd3, hd4⟩ := rowsDim_ok h.rowsDim hzo
  have hzZ : z ∈ Z := hz z (by rw [hzo]; simp)
  have hne : ps ≠ [] := by
    rintro rfl
    exact h.some (List.forall₂_nil_right_iff.1 hF)
  have hnd : (ps.flatMap Prim.outputs).Nodup := by rw [houts]; exact (List.nodup_append.1 hn).2.1
  have hoz : ∀ v ∈ ps.flatMap Prim.outputs, v ∉ Z := by rw [houts]; exact ho
  obtain ⟨ht, hcell, hinit⟩ := freshMix_tidy (hy := s.crp.hypers) hzZ hne hd2
    (fun p hp => by obtain ⟨d, -, h1, h2, h3, h4, -⟩ := hpr p hp; exact ⟨h1, h2, h3, h4⟩) hnd hoz
  obtain ⟨rows, hr1, hr2, hr3, c', hr4, hr5⟩ := Props.C63_accepted (unique (Dict.values s.Zr)) s.Zr h.rows
    (hu _) z s.crp.hypers []
  obtain ⟨hc1, hc2⟩ := seat_kept rows (z := z) rfl hr4
  have hP : Progress Z z ps (primsIn 2 (.flexMix (freshMix z s.crp.hypers ps) : Node (Cgpm 1))) (freshMix z s.crp.hypers ps) :=
    ⟨ht, rfl, kept_self (tidy_reg ht) ⟨freshMix z s.crp.hypers ps, ⟨ps⟩, rfl, rfl, rfl⟩, rfl⟩
  obtain ⟨m', h1, h2, h3, h4⟩ := rows_go hzZ (X := s.X) hoz hnd
    (fun p hp => by obtain ⟨d, -, -, -, -, h4, -⟩ := hpr p hp; exact h4) rows hP rfl hr4
    (hr2.nodup_iff.2 h.rows) (fun r _ v => hcell r v) (by
      intro r hr p hp a ha
      obtain ⟨d, hd, h1, -, -, h4, h5, -⟩ := hpr p hp
      obtain ⟨x, hx1, hx2⟩ := h.cells r (hr2.mem_iff.1 hr) d hd a (by rw [← h5.1, ha]; simp)
      exact ⟨x, hx1, (Prim.legal_iff h1.inv x).2 ((Life.value_iff h5.2.1 h4 x).1 hx2)⟩) g
  have hreg := tidy_reg h2.tidy
  have hview : IsView (.flexMix m' : Node (Cgpm 1)) := ⟨m', ⟨ps⟩, rfl, by rw [h3]; rfl, h2.base⟩
  have hout : (cgpmI 2).outputs (.flexMix m' : Node (Cgpm 1)) = SourceView.vars s := by
    change m'.rowDivide.outputs ++ (cgpmI 1).outputs m'.array.base = _
    rw [h3, h2.base]
    change c'.outputs ++ ps.flatMap Prim.outputs = _
    rw [hc1, houts, SourceView.vars, hzo]
  have hhead : ((cgpmI 2).outputs (.flexMix m' : Node (Cgpm 1))).headD 0 = m'.indexer := by
    rw [hout, h2.index, SourceView.vars, hzo]; rfl
  have hcl : ∀ r, Views.clusterOf (.flexMix m' : Node (Cgpm 1)) r = (Dict.get? rows r).map fun t : Int => Val.num (t : ℚ) := by
    intro r
    refine (clusterOf_eq Z (show View from (.flexMix m' : Node (Cgpm 1))) r).trans ?_
    rw [show ((cgpmI 2).outputs (show View from (.flexMix m' : Node (Cgpm 1)))).headD 0 = m'.indexer from hhead]
    change (if m'.indexer = m'.indexer then Dict.get? m'.rowidToComponent r else _) = _
    rw [if_pos rfl, ← (Props.C27_flexible h2.tidy r).1, h3]
    change Dict.get? (c'.data.map fun kv => (kv.1, Val.num ((kv.2 : Int) : ℚ))) r = _
    rw [Prim.get?_map_data, hr5]
  refine ⟨(.flexMix m' : Node (Cgpm 1)), ?_, h2.tidy, hview, ⟨hout, ?_, ?_, ?_⟩, ?_⟩
  · unfold convertView
    rw [hps]
    have hfm : FlexMix.init (.crp (Crp.init [z] [] s.crp.hypers [])) (.product ⟨ps⟩ : Node Prim) =
        .ok (freshMix z s.crp.hypers ps) := rfl
    simp only [bind, Except.bind, hinit, hd1, hfm, hr1, pure, Except.pure]
    have h1' : observeRows (freshMix z s.crp.hypers ps).indexer (Product.outputs primI ⟨ps⟩) s.X rows
        ((.flexMix (freshMix z s.crp.hypers ps) : Node (Node Prim)), g) = _ := h1
    rw [h1']
  · intro g r c hc
    unfold viewColumns at hc
    rw [hout, SourceView.vars, hzo] at hc
    have hc : c ∈ s.dims.flatMap Dim.outputs := hc
    rw [heldCell_eq (cgpmTLaws Z 2) hreg, h4 r c (by rw [houts]; exact hc)]
    simp only [hr2.mem_iff]
    split
    · rfl
    · exact hcell r c
  · intro r r'
    rw [mates_iff hreg]
    refine Iff.trans (Iff.of_eq (congrArg₂ (fun a b => ∃ k, a = some k ∧ b = some k) (hcl r) (hcl r'))) ?_
    constructor
    · rintro ⟨k, hk, hk'⟩
      obtain ⟨t, ht, rfl⟩ := Option.map_eq_some_iff.1 hk
      obtain ⟨t', ht', e⟩ := Option.map_eq_some_iff.1 hk'
      have e : t' = t := by simpa using e
      subst e
      have key : ∀ {r t}, Dict.get? rows r = some t → ∃ u, Dict.get? s.Zr r = some u := by
        intro r t hr
        exact Dict.exists_get?_of_mem_keys (hr2.mem_iff.1 (Dict.mem_keys_of_get? hr))
      obtain ⟨u, hu⟩ := key ht
      obtain ⟨u', hu'⟩ := key ht'
      obtain rfl := (hr3 _ _ _ _ _ _ hu hu' ht ht').1 rfl
      exact ⟨u, hu, hu'⟩
    · rintro ⟨t, ht, ht'⟩
      have key : ∀ {r t}, Dict.get? s.Zr r = some t → ∃ u, Dict.get? rows r = some u := by
        intro r t hr
        exact Dict.exists_get?_of_mem_keys (hr2.mem_iff.2 (Dict.mem_keys_of_get? hr))
      obtain ⟨u, hu⟩ := key ht
      obtain ⟨u', hu'⟩ := key ht'
      obtain rfl := (hr3 _ _ _ _ _ _ ht ht' hu hu').2 rfl
      exact ⟨.num (u : ℚ), by rw [hu]; rfl, by rw [hu']; rfl⟩
  · intro p hp
    have hl : Like (primsIn 2 (.flexMix (freshMix z s.crp.hypers ps) : Node (Cgpm 1))) p := by
      obtain ⟨m'', e, k1, k2, k3⟩ := h2.kept
      have e : m' = m'' := by injection e
      subst e
      have hprod : ∀ c : Cgpm 1, KeptProduct (primsIn 2 (.flexMix (freshMix z s.crp.hypers ps) : Node (Cgpm 1))) c →
          ∀ p ∈ primsIn 1 c, Like (primsIn 2 (.flexMix (freshMix z s.crp.hypers ps) : Node (Cgpm 1))) p := by
        rintro c ⟨q, rfl, hq⟩ p hp
        obtain ⟨b, hb, hp⟩ := List.mem_flatMap.1 hp
        have : p = b := List.mem_singleton.1 hp
        rw [this]
        exact hq b hb
      rcases List.mem_cons.1 hp with rfl | hp
      · exact k1
      · rcases List.mem_append.1 hp with hp | hp
        · obtain ⟨c, hc, hp⟩ := List.mem_flatMap.1 hp
          exact hprod c (k3 c hc) p hp
        · exact hprod _ k2.2 p hp
    obtain ⟨-, b, hb, hs⟩ := hl
    have hb : b = .crp (Crp.init [z] [] s.crp.hypers []) ∨ b ∈ ps := by
      rcases List.mem_cons.1 hb with e | hb
      · exact .inl e
      · obtain ⟨q, hq, hb⟩ := List.mem_flatMap.1 (show b ∈ ps.flatMap (primsIn 0) from hb)
        have : b = q := List.mem_singleton.1 hb
        exact .inr (this ▸ hq)
    rcases hb with rfl | hb
    · exact ⟨s.crp, List.mem_cons_self, ofDim_same hd3 hs⟩
    · obtain ⟨d, hd, -, -, -, -, h5, -⟩ := hpr b hb
      exact ⟨d, List.mem_cons_of_mem _ hd, ofDim_same h5 hs⟩
  · change (convertToAst 1 m'.array.base >>= fun base => _) = _
    rw [h2.base]
    have hl : List.mapM (convertToAst 0) ps = .ok (ps.map primAst) := mapM_ok_map _ primAst ps fun _ _ => rfl
    change ((List.mapM (convertToAst 0) ps >>= fun l => pure (Ast.list l)) >>= _) = _
    rw [hl, hast, h3]
    have : primAst (.crp c') = Dim.ast s.crp := by
      rw [← hd4]
      simp [primAst, className, distargsK, Prim.getHypers, Crp.getHypers, hc2]
    rw [← this]
    rfl

/-! ## A state -/

/-- The cluster variables of a state. -/
def clusterVars (s : List SourceView) : List Var := s.flatMap fun v => v.crp.outputs

theorem conversion_go {unique : List Int → List Int} (hu : ∀ l, (unique l).Nodup ∧ ∀ t, t ∈ unique l ↔ t ∈ l)
    (g : Rng) {Z : List Var} (s : List SourceView) (h : ∀ v ∈ s, SoundView v) (hn : (s.flatMap SourceView.vars).Nodup)
    (hz : ∀ v ∈ s, ∀ a ∈ v.crp.outputs, a ∈ Z) (ho : ∀ v ∈ s, ∀ a ∈ v.dims.flatMap Dim.outputs, a ∉ Z) :
    ∃ vs, Py.mapL (convertView unique) s g = (.ok vs, g) ∧ List.Forall₂ (fun v w => Tidy Z 2 w ∧ IsView w ∧ Says v w ∧
      convertToAst 2 w = .ok (.mixture (Dim.ast v.crp) (.list (v.dims.map Dim.ast)))) s vs := by
  induction s with
  | nil => exact ⟨[], rfl, .nil⟩
  | cons v s ih =>
    rw [List.flatMap_cons, List.nodup_append] at hn
    obtain ⟨w, h1, h2⟩ := view_ok hu (h v List.mem_cons_self) hn.1 (hz v List.mem_cons_self) (ho v List.mem_cons_self) g
    obtain ⟨ws, h3, h4⟩ := ih (fun u hu => h u (List.mem_cons_of_mem _ hu)) hn.2.1
      (fun u hu => hz u (List.mem_cons_of_mem _ hu)) fun u hu => ho u (List.mem_cons_of_mem _ hu)
    exact ⟨w :: ws, mapL_cons h1 h3, .cons h2 h4⟩

theorem conversion_ok {unique : List Int → List Int} (hu : ∀ l, (unique l).Nodup ∧ ∀ t, t ∈ unique l ↔ t ∈ l)
    {s : List SourceView} (h : SoundState s) (g : Rng) :
    ∃ x, convertState unique s g = (.ok x, g) ∧ IsCrosscat x ∧ Tidy (clusterVars s) 3 (whole x) ∧
      (∀ v ∈ columns x, v ∉ clusterVars s) ∧ List.Forall₂ Says s x.cgpms ∧
      convertToAst 3 (whole x) = .ok (stateAst s) := by
  have hnot : ∀ v ∈ s, ∀ a ∈ v.dims.flatMap Dim.outputs, a ∉ clusterVars s := by
    intro v hv a ha hc
    obtain ⟨u, hu, hau⟩ := List.mem_flatMap.1 hc
    have hap := h.apart
    obtain ⟨l1, l2, rfl⟩ := List.append_of_mem hv
    rw [List.flatMap_append, List.flatMap_cons, List.nodup_append] at hap
    obtain ⟨-, h2, h3⟩ := hap
    rw [List.nodup_append] at h2
    have hav : a ∈ SourceView.vars v := List.mem_append_right _ ha
    have hau' : a ∈ SourceView.vars u := List.mem_append_left _ hau
    rcases List.mem_append.1 hu with hu | hu
    · exact h3 a (List.mem_flatMap.2 ⟨u, hu, hau'⟩) a (List.mem_append_left _ hav) rfl
    · rcases List.mem_cons.1 hu with rfl | hu
      · exact (List.nodup_append.1 h2.1).2.2 a hau a ha rfl
      · exact h2.2.2 a hav a (List.mem_flatMap.2 ⟨u, hu, hau'⟩) rfl
  obtain ⟨vs, h1, h2⟩ := conversion_go hu g s h.views h.apart
    (fun v hv a ha => List.mem_flatMap.2 ⟨v, hv, ha⟩) hnot
  have hr := fun w => forall₂_right (b := w) h2
  have hout : vs.flatMap (cgpmI 2).outputs = s.flatMap SourceView.vars := by
    have h3 := h2.imp fun _ _ h => h.2.2.1.vars
    clear h1 h2 hr hnot h
    induction h3 with
    | nil => rfl
    | cons h _ ih => rw [List.flatMap_cons, List.flatMap_cons, ih, h]
  have hne : vs ≠ [] := by
    rintro rfl
    exact h.some (List.forall₂_nil_right_iff.1 h2)
  obtain ⟨hi, -⟩ := product_of_list (cgpmTLaws (clusterVars s) 2)
    (fun c hc => by obtain ⟨v, -, h, -⟩ := hr c hc; exact tidy_reg h) hne (by rw [hout]; exact h.apart)
  refine ⟨⟨vs⟩, ?_, ?_, ?_, ?_, ?_, ?_⟩
  · unfold convertState
    rw [Py.bind_apply, h1]
    change Py.lift (Product.init (cgpmI 2) vs) g = _
    rw [hi]; rfl
  · intro w hw
    obtain ⟨v, -, -, h, -⟩ := hr w hw
    exact h
  · exact .product (fun c hc => by obtain ⟨v, -, h, -⟩ := hr c hc; exact h) hne hi
  · intro a ha
    obtain ⟨w, hw, ha⟩ := List.mem_flatMap.1 ha
    obtain ⟨v, hv, -, -, hs, -⟩ := hr w hw
    refine hnot v hv a ?_
    obtain ⟨z, hz⟩ := (h.views v hv).rowsDim.one
    unfold viewColumns at ha
    rw [hs.vars, SourceView.vars, hz] at ha
    exact ha
  · exact h2.imp fun _ _ h => h.2.2.1
  · have hl : vs.mapM (convertToAst 2) = .ok (s.map fun v => .mixture (Dim.ast v.crp) (.list (v.dims.map Dim.ast))) := by
      have h3 := h2.imp fun _ _ h => h.2.2.2
      clear h1 h2 hr hnot h hout hne hi
      induction h3 with
      | nil => rfl
      | cons h _ ih =>
        rw [List.mapM_cons, h]
        change (List.mapM (convertToAst 2) _ >>= _) = _
        rw [ih]; rfl
    change (vs.mapM (convertToAst 2) >>= _) = _
    rw [hl]; rfl

end Cgpm2.Conversion
