import Verif.Lemmas.MoveRow
import Verif.Lemmas.SamplesTotal
import Verif.Lemmas.ConcreteRows
import Verif.Props.Table
import Verif.Props.Density
import Verif.Lemmas.TidyLaws

/-!
# Properties C39, C40, C41 and C72: the Gibbs step on a row, and moving a row by hand

All theorems are about mixtures built to any depth (`Tidy`).
-/

namespace Cgpm2
open Spec

variable {Z : List Var} {n : Nat}

/-- The state after queries is tidy (helper). -/
theorem tidy_mapL {α : Type} {c : Cgpm n} (h : Tidy Z n c) (r : RowId) (t : α → Dict Var Val)
    (l : List α) (g : Rng) :
    Tidy Z n (Py.mapL (fun a => (cgpmI n).logpdf r (t a) [] []) l (c, g)).2.1 :=
  Py.mapL_invariant (P := fun st : Cgpm n × Rng => Tidy Z n st.1)
    (f := fun a => (cgpmI n).logpdf r (t a) [] [])
    (fun a st hs => Tidy.call hs (a := .logpdf r (t a) [] []) trivial st.2) l (c, g) h

/-- The chance of a cluster drawn with the given weights (helper). -/
theorem chance_cluster' {supp : List Int} (hn : supp.Nodup) {W : Int → Fl} (w2 : ∀ k ∈ supp, (W k).IsLogP)
    (w3 : 0 < (supp.map fun k => (W k).exp).sum) {P : Rng → Int → Prop}
    (hP : ∀ g, ∃ i, (logPflipIdx (supp.map W) g).1 = .ok i ∧
      i < supp.length ∧ ∀ k, P g k ↔ k = supp.getD i 0) (g : Rng) {k : Int} (hk : k ∈ supp) :
    chance (fun u => P (withUniform u g) k) =
      ENNReal.ofReal ((W k).exp / (supp.map fun k => (W k).exp).sum) := by
  obtain ⟨j, hj, rfl⟩ := List.mem_iff_getElem.1 hk
  have h1 := chance_logPflipIdx (supp.map W) (by
    intro x hx
    obtain ⟨k, hk, rfl⟩ := List.mem_map.1 hx
    exact w2 k hk) (by rw [List.map_map]; exact w3) g j (by simpa using hj)
  have h2 : ((supp.map W).map Fl.exp).getD j 0 / ((supp.map W).map Fl.exp).sum =
      (W supp[j]).exp / (supp.map fun k => (W k).exp).sum := by
    rw [List.map_map]
    simp [List.getD_eq_getElem?_getD, List.getElem?_eq_getElem hj, Function.comp_def]
  rw [h2] at h1
  rw [← h1]
  apply chance_congr
  intro u _
  obtain ⟨i, e1, e2, e3⟩ := hP (withUniform u g)
  rw [e3, e1, List.getD_eq_getElem?_getD, List.getElem?_eq_getElem e2, Option.getD_some,
    hn.getElem_inj_iff]
  simp [eq_comm]

/-- The values of a row that was taken out are accepted again in any cluster they fit (helper). -/
theorem readmit {c c1 : Cgpm (n + 1)} (h : Tidy Z (n + 1) c) {z : Var} {supp : List Int}
    (hm : IsMixture c z supp) {r : RowId} {g g1 : Rng} {ob : Dict Var Val} {k : Val}
    (hu : (cgpmI (n + 1)).unobserve r (c, g) = (.ok (ob, []), (c1, g1)))
    (hf : Fits (n + 1) c1 (Dict.set ob z k)) :
    ((cgpmI (n + 1)).observe r (Dict.set ob z k) [] (c1, g1)).1 = .ok () := by
  have hreg := tidy_reg h
  have K := cgpmTLaws Z (n + 1)
  have hpres : (cgpmTab Z (n + 1)).present c r := by
    by_contra hn
    obtain ⟨e, he⟩ := K.unobserve_absent c r g hreg hn
    rw [hu] at he
    cases he
  obtain ⟨ob', c1', e1, hr1, hnd, hob, hfr, -, -⟩ := K.unobserve c r g hreg hpres
  rw [hu] at e1
  cases e1
  have ha := (cgpmLaws (n + 1)).unobserve_attrs r c g (K.inv _ hreg)
  rw [hu] at ha
  have ha : (cgpmI (n + 1)).outputs c1 = (cgpmI (n + 1)).outputs c := congrArg Prod.fst ha
  have hzo : z ∈ (cgpmI (n + 1)).outputs c := by
    cases c with
    | finMix m => exact List.mem_append_left _ (by rw [hm.1]; simp)
    | flexMix m => exact List.mem_append_left _ (by rw [hm.1]; simp)
    | _ => exact False.elim hm
  obtain ⟨s', g', h1⟩ := fits_acc Z (n + 1) c1 r (Dict.set ob z k) g hr1 hfr
    (Dict.nodup_keys_set _ _ _ hnd) hf
  rw [only_self (fun v hv => by
    rw [ha]
    rw [Dict.mem_keys_set] at hv
    rcases hv with rfl | hv
    · exact hzo
    · by_contra hn
      have h2 := K.cell_out c r v hreg hn
      rw [← hob v, Dict.get?_eq_none_iff] at h2
      exact h2 hv)] at h1
  rw [h1]

namespace Props

/-! ## C39 the Gibbs step on a row -/

/-- If `transition_rows` returns, the model is still well-formed, the row sits in one of the
clusters the divider offers once the row is taken out, and nothing else changed. -/
theorem C39_transition_rows {c c' : Cgpm (n + 1)} (h : Tidy Z (n + 1) c) {r : RowId} {g g' : Rng}
    (ht : transitionRows (cgpmI n) r (c, g) = (.ok (), (c', g'))) :
    Tidy Z (n + 1) c' ∧ ∃ z supp k, IsMixture (without c r g) z supp ∧ k ∈ supp ∧
      (∀ g, heldCell (cgpmI (n + 1)) c' g r z = some (.num (k : ℚ))) ∧ Moved Z z r c c' := by
  have hreg := tidy_reg h
  obtain ⟨ob, c1, z, supp, hu, hm, logps, c2, g2, i, g3, hl, hE, hi, ho⟩ := transitionRows_ok hreg ht
  obtain ⟨h1, h2, hw, h3⟩ := move_row hreg hu hE hm ho
  have hc1 : without c r g = c1 := by unfold without; rw [hu]
  have ht1 : Tidy Z (n + 1) c1 := by
    rw [← hc1]; exact Tidy.call h (a := .unobserve r) trivial g
  have ht2 : Tidy Z (n + 1) c2 := by
    have := tidy_mapL ht1 none (fun k : Int => Dict.set ob z (.num (k : ℚ))) supp g
    rw [hl] at this
    exact this
  refine ⟨.observe ht2 hw ho, z, supp, supp.getD i 0, by rw [hc1]; exact hm, ?_, fun g => ?_, h3⟩
  · rw [List.getD_eq_getElem?_getD, List.getElem?_eq_getElem hi]
    exact List.getElem_mem hi
  · rw [heldCell_eq (cgpmTLaws Z (n + 1)) h1]; exact h2

/-- A model the theorem talks about: two rows in two clusters; each can be moved. -/
example : Tidy [5] 1 (.flexMix Concrete.two : Node Prim) ∧
    IsMixture (n := 1) (.flexMix Concrete.two : Node Prim) 5 [0, 1, 2] :=
  ⟨Concrete.two_tidy, rfl, rfl⟩

/-! ## C40 the Gibbs step draws from the conditional distribution -/

/-- Whatever the random state, the row lands in cluster `k` with probability proportional to the
density the mixture without the row gives to the row's values together with cluster `k`. -/
theorem C40_conditional {c : Cgpm (n + 1)} (h : Tidy Z (n + 1) c) {r : RowId} {g : Rng}
    {ob : Dict Var Val} (hu : ((cgpmI (n + 1)).unobserve r (c, g)).1 = .ok (ob, []))
    {z : Var} {supp : List Int} (hm : IsMixture (without c r g) z supp)
    (hnone : HoldsNothing (cgpmI (n + 1)) (without c r g) none)
    (hq : ∀ k ∈ supp, Query (n + 1) (without c r g) (Dict.set ob z (.num (k : ℚ))) [])
    (hf : ∀ k ∈ supp, Fits (n + 1) (without c r g) (Dict.set ob z (.num (k : ℚ))))
    (hp : ∃ k ∈ supp, Finite (logpdfOf (without c r g) g none (Dict.set ob z (.num (k : ℚ))) []))
    {k : Int} (hk : k ∈ supp) :
    chance (fun u => ∃ c' g', transitionRows (cgpmI n) r (c, withUniform u g) = (.ok (), (c', g')) ∧
        heldCell (cgpmI (n + 1)) c' g' r z = some (.num (k : ℚ))) =
      ENNReal.ofReal (prob (logpdfOf (without c r g) g none (Dict.set ob z (.num (k : ℚ))) []) /
        (supp.map fun j : Int =>
          prob (logpdfOf (without c r g) g none (Dict.set ob z (.num (j : ℚ))) [])).sum) := by
  have hreg := tidy_reg h
  have K := cgpmTLaws Z (n + 1)
  have L := cgpmLaws (n + 1)
  have hpres : (cgpmTab Z (n + 1)).present c r := by
    by_contra hn
    obtain ⟨e, he⟩ := K.unobserve_absent c r g hreg hn
    rw [he] at hu
    cases hu
  obtain ⟨ob', c1, hu1, hr1, hn1, hob, hfr, -, -⟩ := K.unobserve c r g hreg hpres
  have hc1 : without c r g = c1 := by unfold without; rw [hu1]
  rw [hu1] at hu
  cases hu
  have ht1 : Tidy Z (n + 1) c1 := by
    rw [← hc1]; exact Tidy.call h (a := .unobserve r) trivial g
  rw [hc1] at hm hnone hq hf hp ⊢
  obtain ⟨d1, hd1, hz1, hs1⟩ := rowDivide_of_mixture hm
  obtain ⟨hG, hD, -, -⟩ := reg_rowDivide hr1 hd1
  have hnd : supp.Nodup := divides_nodup hD hG hs1
  have hne : ∀ k : Int, Dict.set ob z (.num (k : ℚ)) ≠ [] := fun k h0 => by
    have : Dict.get? (Dict.set ob z (.num (k : ℚ))) z = some (.num (k : ℚ)) := by
      rw [Dict.get?_set, if_pos rfl]
    rw [h0] at this
    cases this
  have hfn := (holdsNothing_iff K hr1 none).1 hnone
  -- the weights
  have hW : ∀ k ∈ supp, (lp (cgpmI (n + 1)) none c1 (Dict.set ob z (.num (k : ℚ))) []).IsLogP :=
    fun k hk => ((cgpmDLaws Z (n + 1)).wdens c1 none hr1 hfn).isLogP0
      ⟨(hq k hk).nodup, (hq k hk).out, (hq k hk).ok⟩
  have hlo : ∀ k ∈ supp, ∀ g, logpdfOf c1 g none (Dict.set ob z (.num (k : ℚ))) [] =
      .ok (lp (cgpmI (n + 1)) none c1 (Dict.set ob z (.num (k : ℚ))) []) := fun k hk g =>
    logpdfOf_eq (hne k) (hW k hk) g
  have hprob : ∀ k ∈ supp, prob (logpdfOf c1 g none (Dict.set ob z (.num (k : ℚ))) []) =
      (lp (cgpmI (n + 1)) none c1 (Dict.set ob z (.num (k : ℚ))) []).exp := fun k hk => by
    rw [hlo k hk]; rfl
  rw [hprob k hk, List.map_congr_left hprob]
  have hpos : 0 < (supp.map fun k : Int =>
      (lp (cgpmI (n + 1)) none c1 (Dict.set ob z (.num (k : ℚ))) []).exp).sum := by
    obtain ⟨k0, hk0, x, hx⟩ := hp
    rw [hlo k0 hk0] at hx
    refine lt_of_lt_of_le ?_ (List.single_le_sum (fun x hx => ?_) _ (List.mem_map.2 ⟨k0, hk0, rfl⟩))
    rotate_left
    · obtain ⟨k, -, rfl⟩ := List.mem_map.1 hx
      exact exp_nonneg _
    · cases hx' : lp (cgpmI (n + 1)) none c1 (Dict.set ob z (.num (k0 : ℚ))) [] <;> rw [hx'] at hx <;>
        cases hx
      exact Real.exp_pos _
  refine chance_cluster' (W := fun k => lp (cgpmI (n + 1)) none c1 (Dict.set ob z (.num (k : ℚ))) [])
    (P := fun g k => ∃ c' g', transitionRows (cgpmI n) r (c, g) = (.ok (), (c', g')) ∧
      heldCell (cgpmI (n + 1)) c' g' r z = some (.num (k : ℚ))) hnd hW hpos (fun g0 => ?_) g hk
  -- one run
  have hu2 : (cgpmI (n + 1)).unobserve r (c, g0) = (.ok (ob, []), (c1, g0)) := by
    have h1 := L.unobserve_noDraw r c g0 g
    rw [hu1] at h1
    exact Prod.ext h1.1 (Prod.ext h1.2.1 h1.2.2)
  obtain ⟨d, hd, -⟩ : ∃ d, Node.rowDivide c = some d ∧ True := by
    rcases hd : Node.rowDivide c with _ | d
    · exfalso
      cases c with
      | finMix m => cases hd
      | flexMix m => cases hd
      | prim p =>
        have := inside_ok (f := Node.prim) (m := primI.unobserve r) (t := p) hu2
        obtain ⟨_, rfl, -⟩ := this
        cases hd1
      | product p =>
        have := inside_ok (f := Node.product) (m := (productI (cgpmI n)).unobserve r) (t := p) hu2
        obtain ⟨_, rfl, -⟩ := this
        cases hd1
      | finArray a => exact hreg.elim
      | flexArray a => exact hreg.elim
    · exact ⟨d, rfl, trivial⟩
  have hsteps := transitionRows_steps hd hu2 hd1 hz1 hs1
  obtain ⟨c2, hl, hE⟩ := mapL_logpdf L (r := none) (t := fun k : Int => Dict.set ob z (.num (k : ℚ)))
    (x := fun k => lp (cgpmI (n + 1)) none c1 (Dict.set ob z (.num (k : ℚ))) []) supp c1 g0
    (K.inv _ hr1) fun k hk => hlo k hk g0
  have hsteps : transitionRows (cgpmI n) r (c, g0) = finishStep (cgpmI (n + 1)) r ob [] z supp
      (Py.mapL (fun k : Int => (cgpmI (n + 1)).logpdf none (Dict.set ob z (.num (k : ℚ))) [] [])
        supp (c1, g0)) := hsteps
  rw [hl] at hsteps
  obtain ⟨i, g3, hi, hlt, -⟩ := logPflipIdx_ok (supp.map fun k : Int =>
      lp (cgpmI (n + 1)) none c1 (Dict.set ob z (.num (k : ℚ))) [])
    (by intro h0; rw [List.map_eq_nil_iff] at h0; rw [h0] at hk; cases hk)
    (by intro x hx; obtain ⟨k, hk, rfl⟩ := List.mem_map.1 hx; exact hW k hk)
    (by rw [List.map_map]; exact hpos) g0
  rw [List.length_map] at hlt
  refine ⟨i, by rw [hi], hlt, ?_⟩
  unfold finishStep at hsteps
  dsimp only at hsteps
  rw [hi] at hsteps
  dsimp only at hsteps
  have hmem : supp.getD i 0 ∈ supp := by
    rw [List.getD_eq_getElem?_getD, List.getElem?_eq_getElem hlt]; exact List.getElem_mem hlt
  have hacc : ((cgpmI (n + 1)).observe r (Dict.set ob z (.num (supp.getD i 0 : Int))) []
      (c2, g3)).1 = .ok () := by
    rw [← (L.observe r (Dict.set ob z (.num (supp.getD i 0 : Int))) [] c1 c2 g3 hE).1]
    have hq0 := hq _ hmem
    exact C28_accepts ht1 ((holdsNothing_iff K hr1 r).2 hfr) (by simpa [Dict.keys] using hq0.nodup)
      (fun v hv => by
        obtain ⟨kv, hkv, rfl⟩ := List.mem_map.1 hv
        exact hq0.out kv (by simpa using hkv)) (hf _ hmem) g3
  rcases ho : (cgpmI (n + 1)).observe r (Dict.set ob z (.num (supp.getD i 0 : Int))) []
      (c2, g3) with ⟨e, c', g4⟩
  rw [ho] at hacc hsteps
  dsimp only at hacc
  subst hacc
  obtain ⟨e1, e2, -⟩ := move_row hreg hu2 hE hm ho
  intro k'
  rw [hsteps]
  constructor
  · rintro ⟨_, _, hx, hy⟩
    cases hx
    rw [heldCell_eq K e1, e2] at hy
    have : ((supp.getD i 0 : Int) : ℚ) = (k' : ℚ) := by
      simpa only [Option.some.injEq, Val.num.injEq] using hy
    exact_mod_cast this.symm
  · rintro rfl
    exact ⟨c', g4, rfl, by rw [heldCell_eq K e1, e2]⟩

/-- For a flexible mixture, whose score is a number: the row lands in cluster `k` with probability
proportional to `exp` of the score of the mixture with the row in cluster `k`. -/
theorem C40_joint {m : FlexMix (Cgpm n)} (h : Tidy Z (n + 1) (.flexMix m : Node (Cgpm n)))
    {r : RowId} {g : Rng} {ob : Dict Var Val} {m1 : FlexMix (Cgpm n)}
    (hu : (flexMixI (cgpmI n)).unobserve r (m, g) = (.ok (ob, []), (m1, g)))
    {z : Var} {supp : List Int} (hm : m1.rowDivide.outputs = [z] ∧ m1.rowDivide.support = .ok supp)
    (hnone : HoldsNothing (flexMixI (cgpmI n)) m1 none)
    (hz : ∀ v ∈ Z, v ∈ (flexMixI (cgpmI n)).outputs m1 → Dict.get? ob v ≠ none)
    (hp : ∀ k ∈ supp, ∀ kv ∈ Dict.set ob z (.num (k : ℚ)),
      Plausible (n + 1) (.flexMix m1 : Node (Cgpm n)) kv.1 kv.2)
    (hf : ∀ k ∈ supp, Fits (n + 1) (.flexMix m1 : Node (Cgpm n)) (Dict.set ob z (.num (k : ℚ)))) :
    ∃ s : Int → ℝ,
      (∀ k ∈ supp, ∀ g, ∃ mk g', (flexMixI (cgpmI n)).observe r (Dict.set ob z (.num (k : ℚ))) [] (m1, g) =
        (.ok (), (mk, g')) ∧ (flexMixI (cgpmI n)).logpdfScore mk = .ok (.fin (s k))) ∧
      ∀ k ∈ supp, chance (fun u => ∃ c' g', transitionRows (cgpmI n) r
          ((.flexMix m : Node (Cgpm n)), withUniform u g) = (.ok (), (c', g')) ∧
          heldCell (cgpmI (n + 1)) c' g' r z = some (.num (k : ℚ))) =
        ENNReal.ofReal (Real.exp (s k) / (supp.map fun j => Real.exp (s j)).sum) := by
  have hreg := tidy_reg h
  have K := cgpmTLaws Z (n + 1)
  have KF := flexMixTLaws (cgpmLaws n) (cgpmTLaws Z n)
  have hu' : (cgpmI (n + 1)).unobserve r ((.flexMix m : Node (Cgpm n)), g) =
      (.ok (ob, []), ((.flexMix m1 : Node (Cgpm n)), g)) := inside_eq (f := Node.flexMix) hu
  have hc1 : without (n := n + 1) (.flexMix m : Node (Cgpm n)) r g = (.flexMix m1 : Node (Cgpm n)) := by
    unfold without; rw [hu']
  have ht1 : Tidy Z (n + 1) (.flexMix m1 : Node (Cgpm n)) := by
    rw [← hc1]; exact Tidy.call h (a := .unobserve r) trivial g
  have hreg1 := tidy_reg ht1
  have hreg1' : (flexMixTab (cgpmI n) (cgpmSem n) Z (cgpmTab Z n)).Reg m1 := hreg1
  have hnone' : HoldsNothing (cgpmI (n + 1)) (.flexMix m1 : Node (Cgpm n)) none :=
    (holdsNothing_iff K hreg1 none).2 ((holdsNothing_iff KF hreg1' none).1 hnone)
  have hpres : (cgpmTab Z (n + 1)).present (.flexMix m : Node (Cgpm n)) r := by
    by_contra hn
    obtain ⟨e, he⟩ := K.unobserve_absent _ r g hreg hn
    rw [hu'] at he
    cases he
  obtain ⟨ob', c1, e1, -, hnd, hob, hfr, -, -⟩ := K.unobserve _ r g hreg hpres
  rw [hu'] at e1
  cases e1
  have hr : HoldsNothing (flexMixI (cgpmI n)) m1 r := (holdsNothing_iff KF hreg1' r).2 hfr
  have hr' : HoldsNothing (cgpmI (n + 1)) (.flexMix m1 : Node (Cgpm n)) r :=
    (holdsNothing_iff K hreg1 r).2 hfr
  have hzout : z ∈ (cgpmI (n + 1)).outputs (.flexMix m1 : Node (Cgpm n)) :=
    List.mem_append_left _ (by rw [hm.1]; simp)
  have hout1 : ∀ kv ∈ ob, kv.1 ∈ (cgpmI (n + 1)).outputs (.flexMix m1 : Node (Cgpm n)) := by
    intro kv hkv
    have ha := (cgpmLaws (n + 1)).unobserve_attrs r (.flexMix m : Node (Cgpm n)) g (K.inv _ hreg)
    rw [hu'] at ha
    have ha : (cgpmI (n + 1)).outputs (.flexMix m1 : Node (Cgpm n)) =
      (cgpmI (n + 1)).outputs (.flexMix m : Node (Cgpm n)) := congrArg Prod.fst ha
    rw [ha]
    by_contra hn
    have h1 := K.cell_out _ r kv.1 hreg hn
    rw [← hob kv.1, Dict.get?_eq_none_iff] at h1
    exact h1 (List.mem_map.2 ⟨kv, hkv, rfl⟩)
  have hnds : ∀ k : Int, (Dict.keys (Dict.set ob z (.num (k : ℚ)))).Nodup := fun k =>
    Dict.nodup_keys_set _ _ _ hnd
  have houts : ∀ k : Int, ∀ kv ∈ Dict.set ob z (.num (k : ℚ)),
      kv.1 ∈ (cgpmI (n + 1)).outputs (.flexMix m1 : Node (Cgpm n)) := by
    intro k kv hkv
    have : kv.1 ∈ Dict.keys (Dict.set ob z (.num (k : ℚ))) := List.mem_map.2 ⟨kv, hkv, rfl⟩
    rw [Dict.mem_keys_set] at this
    rcases this with h1 | h1
    · rw [h1]; exact hzout
    · obtain ⟨kv', hkv', h2⟩ := List.mem_map.1 h1
      rw [← h2]; exact hout1 kv' hkv'
  have hne : ∀ k : Int, Dict.set ob z (.num (k : ℚ)) ≠ [] := fun k h0 => by
    have : Dict.get? (Dict.set ob z (.num (k : ℚ))) z = some (.num (k : ℚ)) := by
      rw [Dict.get?_set, if_pos rfl]
    rw [h0] at this
    cases this
  have hq : ∀ k ∈ supp, Query (n + 1) (.flexMix m1 : Node (Cgpm n)) (Dict.set ob z (.num (k : ℚ))) [] :=
    fun k hk => ⟨by simpa [Dict.keys] using hnds k, fun kv hkv => houts k kv (by simpa using hkv),
      fun kv hkv => plausible_askable' _ _ _ _ (hp k hk kv (by simpa using hkv))⟩
  have hfin : ∀ k ∈ supp, Finite (logpdfOf (n := n + 1) (.flexMix m1 : Node (Cgpm n)) g none
      (Dict.set ob z (.num (k : ℚ))) []) := fun k hk =>
    C25_positive ht1 hnone' (hne k) (by simpa [Dict.keys] using hnds k)
      (fun kv hkv => houts k kv (by simpa using hkv)) (fun kv hkv => hp k hk kv (by simpa using hkv)) g
  have hw : ∀ k : Int, WholeClusters Z (Dict.set ob z (.num (k : ℚ))) := by
    intro k v hv x hx
    rw [Dict.get?_set] at hx
    split at hx
    · cases hx; exact ⟨k, rfl⟩
    · rw [hob] at hx
      exact K.whole _ r v x hreg hv hx
  have hzs : ∀ k : Int, ∀ v ∈ Z, v ∈ (flexMixI (cgpmI n)).outputs m1 →
      Dict.get? (Dict.set ob z (.num (k : ℚ))) v ≠ none := by
    intro k v hv hvo
    rw [Dict.get?_set]
    split
    · simp
    · exact hz v hv hvo
  -- the score without the row
  have hobs : ∀ k ∈ supp, ∀ g, ∃ mk g', (flexMixI (cgpmI n)).observe r
      (Dict.set ob z (.num (k : ℚ))) [] (m1, g) = (.ok (), (mk, g')) := by
    intro k hk g
    have h1 := C28_accepts ht1 hr' (hnds k) (fun v hv => by
      obtain ⟨kv, hkv, rfl⟩ := List.mem_map.1 hv
      exact houts k kv hkv) (hf k hk) g
    rcases ho : (cgpmI (n + 1)).observe r (Dict.set ob z (.num (k : ℚ))) []
      ((.flexMix m1 : Node (Cgpm n)), g) with ⟨e, c', g'⟩
    rw [ho] at h1
    dsimp only at h1
    subst h1
    obtain ⟨mk, -, h2⟩ := inside_ok (f := Node.flexMix) (m := (flexMixI (cgpmI n)).observe r
      (Dict.set ob z (.num (k : ℚ))) []) (t := m1) ho
    exact ⟨mk, g', h2⟩
  have hx : ∀ k ∈ supp, ∃ x : ℝ, ∀ g, logpdfOf (n := n + 1) (.flexMix m1 : Node (Cgpm n)) g none
      (Dict.set ob z (.num (k : ℚ))) [] = .ok (.fin x) := by
    intro k hk
    obtain ⟨x, hx⟩ := hfin k hk
    refine ⟨x, fun g' => ?_⟩
    rw [← hx]
    exact ((cgpmLaws (n + 1)).logpdf_noDraw none _ [] [] _ g' g).1
  classical
  choose! x hx using hx
  have hsc : ∃ y : ℝ, ∀ k ∈ supp, ∀ g, ∃ mk g', (flexMixI (cgpmI n)).observe r
      (Dict.set ob z (.num (k : ℚ))) [] (m1, g) = (.ok (), (mk, g')) ∧
      (flexMixI (cgpmI n)).logpdfScore mk = .ok (.fin (y + x k)) := by
    rcases hsupp : supp with _ | ⟨k0, ks⟩
    · exact ⟨0, by simp⟩
    rw [← hsupp]
    obtain ⟨mk0, g0, ho0⟩ := hobs k0 (by simp [hsupp]) g
    obtain ⟨y, hy, -⟩ := C29_chain_rule ht1 hr hnone (hw k0) (hnds k0) (hzs k0) ho0
    refine ⟨y, fun k hk g1 => ?_⟩
    obtain ⟨mk, g', ho⟩ := hobs k hk g1
    obtain ⟨y', hy', h3⟩ := C29_chain_rule ht1 hr hnone (hw k) (hnds k) (hzs k) ho
    rw [hy] at hy'
    cases hy'
    refine ⟨mk, g', ho, h3 (x k) ?_⟩
    exact hx k hk g1
  obtain ⟨y, hy⟩ := hsc
  refine ⟨fun k => y + x k, hy, fun k hk => ?_⟩
  have hC := C40_conditional (c := (.flexMix m : Node (Cgpm n))) h (r := r) (g := g) (ob := ob)
    (by rw [hu']) (z := z) (supp := supp) (by rw [hc1]; exact hm) (by rw [hc1]; exact hnone')
    (by rw [hc1]; exact hq) (by rw [hc1]; exact hf) (by rw [hc1]; exact ⟨k, hk, hfin k hk⟩) hk
  rw [hC, hc1]
  congr 1
  have e1 : ∀ j ∈ supp, prob (logpdfOf (n := n + 1) (.flexMix m1 : Node (Cgpm n)) g none
      (Dict.set ob z (.num (j : ℚ))) []) = Real.exp (x j) := fun j hj => by rw [hx j hj g]; rfl
  rw [e1 k hk, List.map_congr_left e1]
  have e2 : (supp.map fun j => Real.exp (y + x j)).sum =
      Real.exp y * (supp.map fun j => Real.exp (x j)).sum := by
    rw [← List.sum_map_mul_left]
    simp only [Real.exp_add]
  rw [e2, Real.exp_add, mul_div_mul_left _ _ (Real.exp_ne_zero y)]

/-- The hypotheses are met by the second row of the mixture `two`; so the Gibbs step does return,
and does put the row in either cluster with positive probability. -/
example (g : Rng) : ∃ s : Int → ℝ, ∀ k ∈ ([0, 1] : List Int),
    chance (fun u => ∃ c' g', transitionRows (cgpmI 0) (some 2)
          ((.flexMix Concrete.two : Node Prim), withUniform u g) = (.ok (), (c', g')) ∧
          heldCell (cgpmI 1) c' g' (some 2) 5 = some (.num (k : ℚ))) =
        ENNReal.ofReal (Real.exp (s k) / (([0, 1] : List Int).map fun j => Real.exp (s j)).sum) := by
  obtain ⟨s, -, h⟩ := C40_joint (n := 0) (Z := [5]) Concrete.two_tidy (Concrete.two_unobserve g)
    Concrete.one'_support Concrete.one'_none (fun v hv _ => by
      obtain rfl : v = 5 := by simpa using hv
      simp [Dict.get?_cons]) (fun k hk => Concrete.one'_plausible hk) (fun k hk => Concrete.one'_fits hk)
  exact ⟨s, h⟩

/-! ## C41 moving a row by hand -/

/-- After `set_rowid_component(m, r0, r1)` row `r0` sits in the cluster of the other row `r1`, and
nothing else changed. -/
theorem C41_join {c c' : Cgpm (n + 1)} (h : Tidy Z (n + 1) c) {z : Var} {supp : List Int}
    (hm : IsMixture c z supp) {r0 : RowId} {r1 : Int} (hne : r0 ≠ some r1) {g g' : Rng}
    (hs : setRowidComponent (cgpmI n) false r0 (some r1) (c, g) = (.ok (), (c', g'))) :
    Tidy Z (n + 1) c' ∧ Moved Z z r0 c c' ∧ ∀ g,
      heldCell (cgpmI (n + 1)) c' g r0 z = heldCell (cgpmI (n + 1)) c' g (some r1) z ∧
      heldCell (cgpmI (n + 1)) c' g r0 z ≠ none := by
  obtain ⟨ob, inp, c1, k, g1, hu, hw, ho, -, h1, h2⟩ := join_reg (tidy_reg h) hm hne hs
  have ht1 : Tidy Z (n + 1) c1 := by
    have := Tidy.call h (a := .unobserve r0) trivial g
    change Tidy Z (n + 1) ((cgpmI (n + 1)).unobserve r0 (c, g)).2.1 at this
    rwa [hu] at this
  have hi := unobserve_inputs (tidy_reg h) hu
  subst hi
  exact ⟨.observe ht1 hw ho, h1, h2⟩

/-- After `set_rowid_component(m, r0, None)` on a mixture divided by a CRP, row `r0` sits in a
cluster in which there is no other row, and nothing else changed. -/
theorem C41_own {c c' : Cgpm (n + 1)} (h : Tidy Z (n + 1) c) {z : Var} {supp : List Int}
    (hm : IsMixture c z supp) {d : Crp} (hd : Node.rowDivide c = some (.crp d)) {r0 : RowId} {g g' : Rng}
    (hs : setRowidComponent (cgpmI n) false r0 none (c, g) = (.ok (), (c', g'))) :
    Tidy Z (n + 1) c' ∧ Moved Z z r0 c c' ∧ ∀ g, heldCell (cgpmI (n + 1)) c' g r0 z ≠ none ∧
      ∀ r1, r1 ≠ r0 → heldCell (cgpmI (n + 1)) c' g r1 z ≠ heldCell (cgpmI (n + 1)) c' g r0 z := by
  obtain ⟨ob, inp, c1, k, g1, hu, hw, ho, -, h1, h2⟩ := own_reg (tidy_reg h) hm hd hs
  have ht1 : Tidy Z (n + 1) c1 := by
    have := Tidy.call h (a := .unobserve r0) trivial g
    change Tidy Z (n + 1) ((cgpmI (n + 1)).unobserve r0 (c, g)).2.1 at this
    rwa [hu] at this
  have hi := unobserve_inputs (tidy_reg h) hu
  subst hi
  exact ⟨.observe ht1 hw ho, h1, h2⟩

/-- Moving a row to the cluster of another row succeeds if the row's values fit the cluster. -/
theorem C41_join_succeeds {c : Cgpm (n + 1)} (h : Tidy Z (n + 1) c) {z : Var} {supp : List Int}
    (hm : IsMixture c z supp) {r0 : RowId} {r1 : Int} {g : Rng} {ob : Dict Var Val}
    (hu : ((cgpmI (n + 1)).unobserve r0 (c, g)).1 = .ok (ob, [])) {k : Val}
    (hk : heldCell (cgpmI (n + 1)) c g (some r1) z = some k)
    (hf : Fits (n + 1) (without c r0 g) (Dict.set ob z k)) :
    (setRowidComponent (cgpmI n) false r0 (some r1) (c, g)).1 = .ok () := by
  have hreg := tidy_reg h
  have K := cgpmTLaws Z (n + 1)
  obtain ⟨d, hd, hz, -, hdata⟩ := rowDivide_data hreg hm
  rcases hu' : (cgpmI (n + 1)).unobserve r0 (c, g) with ⟨e, c1, g1⟩
  rw [hu'] at hu
  dsimp only at hu
  subst hu
  obtain ⟨v, hd1, -⟩ := rowDivide_unobserve hreg hd hu'
  rw [heldCell_eq K hreg, ← hdata] at hk
  have h1 := setRowid_some_eq hd hk hu' hd1
  rw [Prim.outputs_remove, hz, List.headD_cons] at h1
  rw [h1]
  unfold without at hf
  rw [hu'] at hf
  exact readmit h hm hu' hf

/-- Moving a row to a cluster of its own succeeds if the row's values fit a new cluster. -/
theorem C41_own_succeeds {c : Cgpm (n + 1)} (h : Tidy Z (n + 1) c) (hx : Node.IsFlexible c)
    {z : Var} {supp supp1 : List Int}
    (hm : IsMixture c z supp) {r0 : RowId} {g : Rng} {ob : Dict Var Val}
    (hu : ((cgpmI (n + 1)).unobserve r0 (c, g)).1 = .ok (ob, []))
    (hm1 : IsMixture (without c r0 g) z supp1) {k : Int} (hk : supp1.getLast? = some k)
    (hf : Fits (n + 1) (without c r0 g) (Dict.set ob z (.num (k : ℚ)))) :
    (setRowidComponent (cgpmI n) false r0 none (c, g)).1 = .ok () := by
  have hreg := tidy_reg h
  have K := cgpmTLaws Z (n + 1)
  obtain ⟨d, hd, hz, -, hdata⟩ := rowDivide_data hreg hm
  rcases hu' : (cgpmI (n + 1)).unobserve r0 (c, g) with ⟨e, c1, g1⟩
  rw [hu'] at hu
  dsimp only at hu
  subst hu
  unfold without at hf hm1
  rw [hu'] at hf hm1
  obtain ⟨d1, hd1, hz1, hs1⟩ := rowDivide_of_mixture hm1
  have h1 := setRowid_none_eq hd hx hu' hd1 hs1 hk
  rw [hz1, List.headD_cons] at h1
  rw [h1]
  exact readmit h hm hu' hf

/-- `set_rowid_component(m, r, r)` with one and the same object does nothing. -/
theorem C41_identical {c : Cgpm (n + 1)} {z : Var} {supp : List Int} (hm : IsMixture c z supp)
    (r : RowId) (g : Rng) : setRowidComponent (cgpmI n) true r r (c, g) = (.ok (), (c, g)) := by
  obtain ⟨d, hd, -⟩ := rowDivide_of_mixture hm
  exact setRowid_identical hd

/-- Two equal row ids that are not one object are not recognised as the same row: moving the only
row of cluster 0 "to itself" raises, and the row is lost. -/
theorem C41_equal_ids_violated : ∃ (c : Cgpm 1) (z : Var) (supp : List Int) (r : RowId),
    Tidy [5] 1 c ∧ IsMixture c z supp ∧ ∀ g, heldCell (cgpmI 1) c g r z ≠ none ∧
      ∃ c', setRowidComponent (cgpmI 0) false r r (c, g) = (.error .assertionError, (c', g)) ∧
        ∀ v, heldCell (cgpmI 1) c' g r v = none :=
  ⟨(.flexMix Concrete.two : Node Prim), 5, [0, 1, 2], some 1, Concrete.two_tidy, ⟨rfl, rfl⟩,
    fun _ => ⟨nofun, _, rfl, fun _ => rfl⟩⟩

/-- Row 2 can be moved to the cluster of row 1, and to one of its own. -/
example (g : Rng) : (∃ c', setRowidComponent (cgpmI 0) false (some 2) (some 1)
      ((.flexMix Concrete.two : Node Prim), g) = (.ok (), (c', g))) ∧
    ∃ c', setRowidComponent (cgpmI 0) false (some 2) none
      ((.flexMix Concrete.two : Node Prim), g) = (.ok (), (c', g)) :=
  ⟨⟨_, rfl⟩, _, rfl⟩

/-! ## C72 get_rowids -/

/-- `get_rowids` lists exactly the rows that have a cluster, each once. -/
theorem C72_get_rowids {c : Cgpm (n + 1)} (h : Tidy Z (n + 1) c) {z : Var} {supp : List Int}
    (hm : IsMixture c z supp) (g : Rng) : ∃ l, getRowids (S := Cgpm n) (c, g) = (.ok l, (c, g)) ∧
      l.Nodup ∧ ∀ r, r ∈ l ↔ heldCell (cgpmI (n + 1)) c g r z ≠ none := by
  have hreg := tidy_reg h
  have K := cgpmTLaws Z (n + 1)
  obtain ⟨d, hd, hz, -, hdata⟩ := rowDivide_data hreg hm
  obtain ⟨hG, -⟩ := reg_rowDivide hreg hd
  refine ⟨Dict.keys d.data, ?_, ?_, fun r => ?_⟩
  · have := currentDivide_bind (fun d => (pure (Dict.keys d.data) : Py (Node (Cgpm n) × Rng) (List RowId)))
      c g
    rw [hd] at this
    exact this
  · exact hG.1.nodup
  · rw [heldCell_eq K hreg, ← hdata, Ne, Dict.get?_eq_none_iff, not_not]

example (g : Rng) : getRowids (S := Prim) ((.flexMix Concrete.two : Node Prim), g) =
    (.ok [some 1, some 2], ((.flexMix Concrete.two : Node Prim), g)) := rfl

end Props
end Cgpm2
