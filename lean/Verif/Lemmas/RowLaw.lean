import Verif.Lemmas.Stationary
import Verif.Lemmas.Clusterings
import Verif.Props.Rows

/-!
# The law of one Gibbs step on a row of a view (helpers)
-/

namespace Cgpm2.Views
open Spec Cpp MeasureTheory

variable {Z : List Var} {v u w : View} {T : View → Prop}

/-! ## Views with the same table -/

/-- A view with the columns, hyperparameters, rows and cells of `v` that satisfies `T`. -/
structure Fit (T : View → Prop) (Z : List Var) (v u : View) : Prop where
  side : T u
  reg : (cgpmTab Z 2).Reg u
  isView : IsView u
  contents : SameContents v u
  rows : ∀ r, Mates v r r ↔ Mates u r r

theorem SameContents.between {v u w : View} (h : SameContents v u) (h' : SameContents v w)
    (hu : ∀ p ∈ primsIn 2 u, ∃ b ∈ primsIn 2 v, b.outputs = p.outputs) : SameContents u w where
  cluster := h'.cluster.trans h.cluster.symm
  columns := h'.columns.trans h.columns.symm
  hypers p hp q hq e := by
    obtain ⟨b, hb, hbp⟩ := hu p hp
    exact (h.hypers b hb p hp hbp).symm.trans (h'.hypers b hb q hq (hbp.trans e))
  cells g r o ho := by
    have ho := h.columns.mem_iff.1 ho
    exact (h'.cells g r o ho).trans (h.cells g r o ho).symm

/-- The primitives of a view: the divider, and copies of the columns. -/
theorem prims_cases (h : (cgpmTab Z 2).Reg u) {m : FlexMix (Cgpm 1)} {p : Product (Cgpm 0)} (hf : Flat u m p)
    {b : Prim} (hb : b ∈ primsIn 2 u) : b.Good ∧ (b.outputs = [m.indexer] ∨ ∃ a ∈ p.cgpms, b.outputs = Prim.outputs a) := by
  have h0 := h
  rw [hf.eq] at hb h0
  have hm : MixReg _ _ _ _ _ _ _ m := h0
  have key : ∀ c : Cgpm 1, c ∈ m.array.base :: Dict.values m.array.cgpms → b ∈ primsIn 1 c →
      b.Good ∧ ∃ a ∈ p.cgpms, b.outputs = Prim.outputs a := by
    intro c hc hb
    obtain ⟨hr, q, rfl, hs⟩ := comps_product hf h hc
    have hb' : b ∈ (show List Prim from q.cgpms) := by
      obtain ⟨b', hb', hb⟩ := List.mem_flatMap.1 hb
      rw [List.mem_singleton.1 hb]
      exact hb'
    obtain ⟨a, ha, he⟩ := shape_prims hs (q := b) hb
    unfold Prim.shape at he
    injection he with e1 e2 e3
    exact ⟨(hr.1 b hb').1, a, ha, e1.symm⟩
  rcases List.mem_cons.1 hb with rfl | hb
  · exact ⟨hm.inv.1, .inl hf.out⟩
  · rcases List.mem_append.1 hb with hb | hb
    · obtain ⟨c, hc, hb⟩ := List.mem_flatMap.1 hb
      exact (key c (List.mem_cons_of_mem _ hc) hb).imp id .inr
    · exact (key _ List.mem_cons_self hb).imp id .inr

theorem prims_cover (h : (cgpmTab Z 2).Reg v) (hv : IsView v) (h' : (cgpmTab Z 2).Reg u) (hu : IsView u)
    (hx : ((cgpmI 2).outputs u).headD 0 = ((cgpmI 2).outputs v).headD 0)
    (hc : (viewColumns u).Perm (viewColumns v)) : ∀ b ∈ primsIn 2 u, ∃ a ∈ primsIn 2 v, a.outputs = b.outputs := by
  intro b hb
  obtain ⟨m, p, hf⟩ := flat_of_reg h hv
  obtain ⟨n, q, hg⟩ := flat_of_reg h' hu
  rcases (prims_cases h' hg hb).2 with h1 | ⟨a, ha, h1⟩
  · refine ⟨m.rowDivide, ?_, ?_⟩
    · rw [hf.eq]
      exact List.mem_cons_self
    · rw [h1, hf.out]
      rw [hf.outputs, hg.outputs] at hx
      have : n.indexer = m.indexer := hx
      rw [this]
  · obtain ⟨o, ho⟩ := hg.single a ha
    have ho' : o ∈ viewColumns u := by
      rw [viewColumns_flat hg]
      exact List.mem_flatMap.2 ⟨a, ha, by rw [ho]; simp⟩
    rw [hc.mem_iff, viewColumns_flat hf] at ho'
    obtain ⟨a', ha', ho'⟩ := List.mem_flatMap.1 ho'
    obtain ⟨o', e⟩ := hf.single a' ha'
    rw [e, List.mem_singleton] at ho'
    refine ⟨a', flat_prims hf ha', ?_⟩
    rw [h1]
    exact e.trans (by rw [← ho']; exact ho.symm)

theorem Fit.cover (hv : (cgpmTab Z 2).Reg v) (hv' : IsView v) (h : Fit T Z v u) :
    ∀ b ∈ primsIn 2 u, ∃ a ∈ primsIn 2 v, a.outputs = b.outputs :=
  prims_cover hv hv' h.reg h.isView h.contents.cluster h.contents.columns

theorem kept_self (h : (cgpmTab Z 2).Reg u) (hu : IsView u) : KeptView (primsIn 2 u) u := by
  obtain ⟨m, p, hf⟩ := flat_of_reg h hu
  have h0 := h
  rw [hf.eq] at h0
  have hm : MixReg _ _ _ _ _ _ _ m := h0
  have key : ∀ b ∈ primsIn 2 u, Like (primsIn 2 u) b := fun b hb => ⟨(prims_cases h hf hb).1, b, hb, .rfl' b⟩
  have kp : ∀ c : Cgpm 1, c ∈ m.array.base :: Dict.values m.array.cgpms → KeptProduct (primsIn 2 u) c := by
    intro c hc
    obtain ⟨hr, q, rfl, hs⟩ := comps_product hf h hc
    refine ⟨q, rfl, fun b hb => key b ?_⟩
    have hb' : b ∈ primsIn 1 (.product q : Node (Cgpm 0)) := List.mem_flatMap.2 ⟨b, hb, List.mem_singleton.2 rfl⟩
    rw [hf.eq]
    rcases List.mem_cons.1 hc with h1 | h1
    · exact List.mem_cons_of_mem _ (List.mem_append.2 (.inr (h1 ▸ hb')))
    · exact List.mem_cons_of_mem _ (List.mem_append.2 (.inl (List.mem_flatMap.2 ⟨_, h1, hb'⟩)))
  refine ⟨m, hf.eq, key _ (by rw [hf.eq]; exact List.mem_cons_self), ⟨?_, kp _ List.mem_cons_self⟩,
    fun c hc => kp c (List.mem_cons_of_mem _ hc)⟩
  exact (cgpmTLaws Z 1).inv _ (flexMix_base (cgpmLaws 1) (cgpmTLaws Z 1) h0).1

theorem kept_hypers (h : SameContents v u) (hk : KeptView (primsIn 2 u) w) : ∀ p ∈ primsIn 2 v, ∀ q ∈ primsIn 2 w,
    p.outputs = q.outputs → SameModel p q := by
  intro p hp q hq e
  obtain ⟨m, rfl, h1, h2⟩ := hk
  have key : Like (primsIn 2 u) q := by
    have kp : ∀ c : Cgpm 1, KeptProduct (primsIn 2 u) c → q ∈ primsIn 1 c → Like (primsIn 2 u) q := by
      rintro c ⟨k, rfl, hk⟩ hq
      obtain ⟨b, hb, hq⟩ := List.mem_flatMap.1 hq
      rw [List.mem_singleton.1 hq]
      exact hk b hb
    rcases List.mem_cons.1 hq with rfl | hq
    · exact h1
    · rcases List.mem_append.1 hq with hq | hq
      · obtain ⟨c, hc, hq⟩ := List.mem_flatMap.1 hq
        exact kp c (h2.2 c hc) hq
      · exact kp _ h2.1.2 hq
  obtain ⟨-, b, hb, hbq⟩ := key
  exact (h.hypers p hp b hb (e.trans hbq.outputs.symm)).trans hbq

theorem Fit.steady (hv : (cgpmTab Z 2).Reg v) (hv' : IsView v) (hp : ∀ o ∈ viewColumns v, o ∉ Z)
    (hk : FullyKnown v) (h : Fit T Z v u) : Steady Z u := by
  have K := cgpmTLaws Z 2
  refine ⟨fun o ho r x hx => ?_, fun hn => ?_⟩
  · have ho' := h.contents.columns.mem_iff.1 ho
    obtain ⟨m, p, hf, b, hb, h1, h2, h3⟩ := takes_cell h.reg h.isView (hp o ho') hx
    refine ⟨m, p, hf, b, hb, h1, h2, h3, ?_⟩
    rintro rfl
    obtain ⟨a, ha, hab⟩ := h.cover hv hv' b (flat_prims hf hb)
    have hsm := h.contents.hypers a ha b (flat_prims hf hb) hab
    have hne := fun hkd => hk.missing a ha hkd o (by rw [hab, h1]; simp) (fun _ => ⟨0, 0⟩) r
    rw [← h.contents.cells (fun _ => ⟨0, 0⟩) r o ho', heldCell_eq K h.reg, hx] at hne
    have hkd : Prim.kind a = Prim.kind b := hsm.kind
    rw [hkd] at hne
    exact ⟨fun e => hne (.inl e) rfl, fun e => hne (.inr e) rfl⟩
  · rw [present_cluster h.reg h.isView] at hn
    have : Mates u none none := by
      rw [mates_iff h.reg]
      rcases hc : clusterOf u none with _ | k
      · exact absurd hc hn
      · exact ⟨k, rfl, rfl⟩
    obtain ⟨k, hk', -⟩ := (mates_iff hv _ _).1 ((h.rows none).2 this)
    have := hk.anonymous (fun _ => ⟨0, 0⟩) (((cgpmI 2).outputs v).headD 0)
    rw [heldCell_eq K hv, ← clusterOf_eq Z, hk'] at this
    cases this

/-! ## The step -/

/-- What a Gibbs step on row `r` does: the state after taking the row out and weighing the clusters,
the clusters, and the state for each of them. -/
structure Step (Z : List Var) (u : View) (r : RowId) (supp : List Int) (s : Int → View) (x : Int → ℝ) (y : ℝ) : Prop where
  nodup : supp.Nodup
  ne : supp ≠ []
  run : ∀ g, ∃ i g', pflipIdx (supp.map fun k => Real.exp (x k)) g = (.ok i, g') ∧ i < supp.length ∧
    transitionRows (cgpmI 1) r (u, g) = (.ok (), (s (supp.getD i 0), g'))
  kept : ∀ k ∈ supp, KeptView (primsIn 2 u) (s k)
  kin : ∀ k ∈ supp, ViewKin Z u (s k)
  score : ∀ k ∈ supp, (cgpmI 2).logpdfScore (s k) = .ok (.fin (y + x k))
  moved : ∀ k ∈ supp, ∀ r', clusterOf (s k) r' = if r' = r then some (.num (k : ℚ)) else clusterOf u r'
  occupied : ∀ r', r' ≠ r → ∀ k, clusterOf u r' = some k → ∃ j ∈ supp, k = .num (j : ℚ)
  fresh : ∃ k ∈ supp, (∀ r', r' ≠ r → clusterOf u r' ≠ some (.num (k : ℚ))) ∧
    ∀ j ∈ supp, j ≠ k → ∃ r', r' ≠ r ∧ clusterOf u r' = some (.num (j : ℚ))

theorem step_of (h : (cgpmTab Z 2).Reg u) (hu : IsView u) (hp : ∀ o ∈ viewColumns u, o ∉ Z)
    (hs : Steady Z u) {r : RowId} (hr : (cgpmTab Z 2).present u r) : ∃ supp s x y, Step Z u r supp s x y := by
  have K := cgpmTLaws Z 2
  have L := cgpmLaws 2
  obtain ⟨ob, v1, z, supp, o⟩ := out_of h hu hp hr
  obtain ⟨m, p, hf, hz, hsupp⟩ := o.zs
  have hfn : (cgpmTab Z 2).Fresh v1 none := fun a => by
    rw [o.others none (fun e => hs.anon (e ▸ hr))]
    by_contra hc
    exact hs.anon (K.present_cell _ _ _ h hc)
  have hfin : ∀ k ∈ supp, ∃ x : ℝ, lp (cgpmI 2) none v1 (Dict.set ob z (.num (k : ℚ))) [] = .fin x :=
    fun k hk => ((cgpmDLaws Z 2).full v1 none o.reg hfn).fin _ _ (o.query h
      (by rw [← hz]; exact plausible_cluster hf o.reg ⟨supp, k, hsupp, hk, rfl⟩)
      (fun a ha x hx => plausible_column o.reg ((hs.suits a ha r x hx).shape o.reg o.shape) (hp a ha)))
  choose! x hx using hfin
  have hW : ∀ k ∈ supp, (lp (cgpmI 2) none v1 (Dict.set ob z (.num (k : ℚ))) []).IsLogP := fun k hk => by
    rw [hx k hk]
    trivial
  have hl : ∀ g, ∃ v2, Py.mapL (fun k : Int => (cgpmI 2).logpdf none (Dict.set ob z (.num (k : ℚ))) [] []) supp (v1, g) =
      (.ok (supp.map fun k => Fl.fin (x k)), (v2, g)) ∧ (cgpmSem 2).E v1 v2 := fun g =>
    mapL_logpdf L (r := none) (t := fun k : Int => Dict.set ob z (.num (k : ℚ))) (x := fun k => Fl.fin (x k)) supp v1 g
      (K.inv _ o.reg) fun k hk => (lp_ok L.logpdf_noDraw (hW k hk) (set_ne _ _ _) g).trans (by rw [hx k hk])
  let g0 : Rng := fun _ => ⟨0, 0⟩
  obtain ⟨v2, hl0, hE⟩ := hl g0
  have hl : ∀ g, Py.mapL (fun k : Int => (cgpmI 2).logpdf none (Dict.set ob z (.num (k : ℚ))) [] []) supp (v1, g) =
      (.ok (supp.map fun k => Fl.fin (x k)), (v2, g)) := fun g => by
    obtain ⟨e1, e2, e3⟩ := Py.NoDraw.mapL (f := fun k : Int => (cgpmI 2).logpdf none (Dict.set ob z (.num (k : ℚ))) [] [])
      (fun k => L.logpdf_noDraw none (Dict.set ob z (.num (k : ℚ))) [] []) supp v1 g g0
    rw [hl0] at e1 e2
    exact Prod.ext e1 (Prod.ext e2 e3)
  have hr2 := K.reg_E _ _ hE o.reg
  have hk1 : KeptView (primsIn 2 u) v1 := by
    have := stays_view_unobserve (primsIn 2 u) r u g0 (kept_self h hu)
    rwa [o.unobserve] at this
  have hk2 := kept_E hk1 hE
  obtain ⟨m2, em2, hkm⟩ := id hk2
  have hv2 : IsView v2 := isView_of_shape (congrArg (fun x => x.2.2) (L.attrs_E _ _ hE).symm) hr2 o.view
  have hz2 : m2.indexer = z := by
    obtain ⟨m2', p2, hf2⟩ := flat_of_reg hr2 hv2
    have e1 := hf2.eq
    rw [em2] at e1
    cases e1
    have := congrArg (fun x => x.1.headD 0) (L.attrs_E _ _ hE)
    dsimp only [attrs] at this
    rw [hf.outputs, hf2.outputs] at this
    exact this.symm.trans hz
  have hobs : ∀ k ∈ supp, ∀ g, (cgpmI 2).observe r (Dict.set ob z (.num (k : ℚ))) [] (v2, g) =
      (.ok (), (((cgpmI 2).observe r (Dict.set ob z (.num (k : ℚ))) [] (v2, g0)).2.1, g)) := by
    intro k hk g
    obtain ⟨v3, h3⟩ := o.back k hk g
    obtain ⟨h4, -, h6⟩ := L.observe r (Dict.set ob z (.num (k : ℚ))) [] v1 v2 g hE
    rw [h3] at h4 h6
    have h5 := noDraw_view_observe (r := r) (o := Dict.set ob z (.num (k : ℚ))) (i := []) (m := m2) (z := .num (k : ℚ))
      (by rw [hz2, Dict.get?_set, if_pos rfl]) hkm g g0
    rw [em2] at h4 h6 ⊢
    exact Prod.ext h4.symm (Prod.ext h5.2.1 h6.symm)
  have hmix : IsMixture (n := 2) v1 z supp := by
    rw [hf.eq]
    exact ⟨by rw [← hz]; exact hf.out, hsupp⟩
  have hmv : ∀ k ∈ supp, _ := fun k hk => move_row (n := 1) h (o.unobserve g0) hE hmix (hobs k hk g0)
  have hkin : ∀ k ∈ supp, ViewKin Z u ((cgpmI 2).observe r (Dict.set ob z (.num (k : ℚ))) [] (v2, g0)).2.1 := fun k hk =>
    kin_of_move h hu (o.unobserve g0) hE hmix (hobs k hk g0)
  have hzu : ((cgpmI 2).outputs u).headD 0 = z := by
    rw [← o.outputs h, hf.outputs]
    exact hz
  obtain ⟨y, hy⟩ := view_scored o.reg o.view
  have hd1 : Node.rowDivide v1 = some m.rowDivide := by rw [hf.eq]; rfl
  obtain ⟨hG, hD, -, hdata⟩ := reg_rowDivide (n := 1) o.reg hd1
  have hdata : ∀ r', Dict.get? m.rowDivide.data r' = if r' = r then none else clusterOf u r' := by
    intro r'
    rw [hdata r' _ hf.out]
    split
    · next e => rw [e]; exact o.gone _
    · next e => rw [o.others r' e, clusterOf_eq Z, hzu, ← hz]
  rcases hcrp : m.rowDivide with c | c | c | c | c | c
  case crp =>
    rw [hcrp] at hdata hsupp hG
    cases hsupp
    have hI : c.Inv := hG.1
    have hval : ∀ k : Int, k ∈ Dict.values c.data ↔ ∃ r', r' ≠ r ∧ clusterOf u r' = some (.num (k : ℚ)) := by
      intro k
      have hdata : ∀ r', (Dict.get? c.data r').map (fun x : Int => Val.num (x : ℚ)) =
          if r' = r then none else clusterOf u r' := fun r' => by
        rw [← hdata r']
        exact (Prim.get?_map_data c.data r').symm
      constructor
      · intro hk
        obtain ⟨⟨r', k'⟩, hm', rfl⟩ := List.mem_map.1 hk
        have := hdata r'
        rw [Dict.get?_of_mem hI.nodup hm'] at this
        by_cases e : r' = r
        · rw [if_pos e] at this
          cases this
        · rw [if_neg e] at this
          exact ⟨r', e, this.symm⟩
      · rintro ⟨r', e, hc⟩
        have := hdata r'
        rw [if_neg e, hc] at this
        rcases hg : Dict.get? c.data r' with _ | k'
        · rw [hg] at this
          cases this
        · rw [hg] at this
          have : (Val.num (k' : ℚ)) = .num (k : ℚ) := by simpa using this
          injection this with this
          have : k' = k := by exact_mod_cast this
          subst this
          exact List.mem_map.2 ⟨_, Dict.mem_of_get? hg, rfl⟩
    refine ⟨c.support, fun k => ((cgpmI 2).observe r (Dict.set ob z (.num (k : ℚ))) [] (v2, g0)).2.1, x, y,
      Crp.support_nodup hI, supp_ne (d := .crp c) rfl rfl, fun g => ?_, fun k hk => ?_, fun k hk => ?_, fun k hk => ?_, fun k hk r' => ?_,
      fun r' e k hk => ?_, ?_⟩
    · obtain ⟨i, g', h1, h2, -⟩ := pflipIdx_ok (c.support.map fun k => Real.exp (x k))
        (by intro h0; rw [List.map_eq_nil_iff] at h0; exact supp_ne (d := .crp c) rfl rfl h0)
        (by intro p hp; obtain ⟨k, -, rfl⟩ := List.mem_map.1 hp; exact (Real.exp_pos _).le)
        (by
          refine List.sum_pos _ (fun p hp => ?_) (by simpa using supp_ne (d := .crp c) rfl rfl)
          obtain ⟨k, -, rfl⟩ := List.mem_map.1 hp
          exact Real.exp_pos _) g
      rw [List.length_map] at h2
      have hmem : c.support.getD i 0 ∈ c.support := by
        rw [List.getD_eq_getElem?_getD, List.getElem?_eq_getElem h2]; exact List.getElem_mem h2
      refine ⟨i, g', h1, h2, (o.steps g).trans ?_⟩
      rw [hl]
      unfold finishStep
      dsimp only
      rw [logPflipIdx_eq _ (by intro y hy; obtain ⟨k, -, rfl⟩ := List.mem_map.1 hy; trivial), List.map_map]
      rw [show (Fl.exp ∘ fun k => Fl.fin (x k)) = fun k => Real.exp (x k) from rfl, h1]
      exact hobs _ hmem g'
    · exact stays_view_observe _ r _ _ v2 g0 hk2
    · exact hkin k hk
    · obtain ⟨v3, h3⟩ := o.back k hk g0
      obtain ⟨-, h5, -⟩ := L.observe r (Dict.set ob z (.num (k : ℚ))) [] v1 v2 g0 hE
      rw [h3] at h5
      have hsc : (cgpmI 2).logpdfScore v3 = .ok (.fin (y + x k)) := by
        refine K.chain v1 r (Dict.set ob z (.num (k : ℚ))) [] g0 v3 g0 (x k) y o.reg o.gone (hmv k hk).2.2.1
          (Dict.nodup_keys_set _ _ _ o.nodup) (fun a ha ha' => ?_) h3 hy ?_
        · rw [Dict.get?_set]
          split
          · nofun
          · next e =>
            rw [hf.outputs] at ha'
            rcases List.mem_cons.1 ha' with e' | ha'
            · exact absurd (hz.symm.trans e'.symm) e
            · refine absurd ha (hp a ?_)
              have := viewColumns_flat hf
              unfold viewColumns at this ⊢
              rw [o.outputs h] at this
              rw [this]
              exact ha'
        · rw [if_neg (set_ne _ _ _)]
          refine (cgpmFree Z 2 v1 r none _ [] [] g0 o.reg o.gone hfn).trans ?_
          rw [(lp_ok L.logpdf_noDraw (hW k hk) (set_ne _ _ _) g0), hx k hk]
      exact (L.score_E _ _ h5).symm.trans hsc
    · obtain ⟨h1, h2, -, h4⟩ := hmv k hk
      split
      · next e =>
        rw [e, clusterOf_eq Z, (hkin k hk).outs, hzu]
        exact h2
      · next e =>
        rw [clusterOf_eq Z, clusterOf_eq Z, (hkin k hk).outs, hzu, ← heldCell_eq K h1, ← heldCell_eq K h]
        exact h4.others g0 _ _ e
    · obtain ⟨j, rfl⟩ := K.whole u r' z k h (by rw [← hz]; exact (show MixReg _ _ _ _ _ _ _ m by
        have := o.reg
        rwa [hf.eq] at this).x_mem) (by rw [← hzu, ← clusterOf_eq Z]; exact hk)
      exact ⟨j, (Crp.mem_support_iff hI j).2 (.inl ((hval j).2 ⟨r', e, hk⟩)), rfl⟩
    · obtain ⟨f, h1, h2⟩ := Crp.support_spec hI
      refine ⟨f, (Crp.mem_support_iff hI f).2 (.inr h2), fun r' e he => Crp.nextTable_not_mem h2 ((hval f).2 ⟨r', e, he⟩),
        fun j hj hne => ?_⟩
      rcases (Crp.mem_support_iff hI j).1 hj with h3 | h3
      · exact (hval j).1 h3
      · exact absurd (Crp.nextTable_unique h3 h2) hne
  all_goals
    have := hf.kind
    rw [hcrp] at this
    cases this

end Cgpm2.Views
