import Verif.Lemmas.HyperKernel

/-!
# The law of transition_hypers (helpers)
-/

namespace Cgpm2
open Spec MeasureTheory

variable {μ : Measure Draw} [IsProbabilityMeasure μ] {k : Prim.Kind} {grids : Dict String (List ℝ)} {ps : List Prim}

theorem Prim.eq_of_hypers {p q : Prim} (hn : p.kind ≠ .normalUC) (h : SameButHypers p q)
    (hh : ∀ n ∈ hyperNames p.kind, Dict.get? q.getHypers n = Dict.get? p.getHypers n) : q = p := by
  cases p <;> cases q <;> try exact False.elim h
  case crp.crp a b =>
    have h1 := hh "alpha" (by simp [hyperNames, kind])
    simp [getHypers, Crp.getHypers, Dict.get?] at h1
    simp only [SameButHypers] at h; rw [h, h1]
  case categorical.categorical a b =>
    have h1 := hh "alpha" (by simp [hyperNames, kind])
    simp [getHypers, Categorical.getHypers, Dict.get?] at h1
    simp only [SameButHypers] at h; rw [h, h1]
  case bernoulli.bernoulli a b =>
    have h1 := hh "alpha" (by simp [hyperNames, kind])
    have h2 := hh "beta" (by simp [hyperNames, kind])
    simp [getHypers, Bernoulli.getHypers, Dict.get?] at h1 h2
    simp only [SameButHypers] at h; rw [h, h1, h2]
  case normal.normal a b =>
    have h1 := hh "m" (by simp [hyperNames, kind])
    have h2 := hh "r" (by simp [hyperNames, kind])
    have h3 := hh "s" (by simp [hyperNames, kind])
    have h4 := hh "nu" (by simp [hyperNames, kind])
    simp [getHypers, Normal.getHypers, Dict.get?] at h1 h2 h3 h4
    simp only [SameButHypers] at h; rw [h, h1, h2, h3, h4]
  case normalUC.normalUC a b =>
    exact absurd rfl hn
  case poisson.poisson a b =>
    have h1 := hh "a" (by simp [hyperNames, kind])
    have h2 := hh "b" (by simp [hyperNames, kind])
    simp [getHypers, Poisson.getHypers, Dict.get?] at h1 h2
    simp only [SameButHypers] at h; rw [h, h1, h2]

theorem Prim.keys_getHypers {p : Prim} (hn : p.kind ≠ .normalUC) : Dict.keys p.getHypers = hyperNames p.kind := by
  cases p <;> first | rfl | exact absurd rfl hn

theorem hyperNames_nodup (k : Prim.Kind) : (hyperNames k).Nodup := by cases k <;> simp [hyperNames]

theorem Dict.ext_keys {K V : Type} [DecidableEq K] : ∀ {d e : Dict K V}, Dict.keys d = Dict.keys e → (Dict.keys d).Nodup →
    (∀ n ∈ Dict.keys d, Dict.get? d n = Dict.get? e n) → d = e
  | [], [], _, _, _ => rfl
  | [], _ :: _, h, _, _ => by cases h
  | _ :: _, [], h, _, _ => by cases h
  | (a, x) :: d, (b, y) :: e, h, nd, hg => by
    have h : a :: Dict.keys d = b :: Dict.keys e := h
    obtain ⟨rfl, h2⟩ := List.cons.inj h
    have nd : (a :: Dict.keys d).Nodup := nd
    rw [List.nodup_cons] at nd
    have h0 := hg a (List.mem_cons_self : a ∈ a :: Dict.keys d)
    simp only [Dict.get?, if_true, Option.some.injEq] at h0
    subst h0
    rw [Dict.ext_keys h2 nd.2 fun n hn => ?_]
    have := hg n (List.mem_cons_of_mem a hn : n ∈ a :: Dict.keys d)
    have hne : a ≠ n := fun e => nd.1 (e ▸ hn)
    simpa [Dict.get?, hne] using this

/-- The hyperparameters given are the ones reported. -/
theorem withHypers_get {p : Prim} (hn : p.kind ≠ .normalUC) {c : Dict String ℝ} (hk : HypersOk p.kind c)
    (hc : Dict.keys c = hyperNames p.kind) : (Prim.withHypers c p).getHypers = c := by
  have hkind := Prim.withHypers_kind c p
  refine Dict.ext_keys ?_ ?_ fun n hn' => ?_
  · rw [Prim.keys_getHypers (by rw [hkind]; exact hn), hkind, hc]
  · rw [Prim.keys_getHypers (by rw [hkind]; exact hn)]
    exact hyperNames_nodup _
  · rw [Prim.keys_getHypers (by rw [hkind]; exact hn), hkind] at hn'
    exact ((Props.C18_setHypers p c).2.1 hk).1 n hn'

/-- Hyperparameters given earlier do not matter. -/
theorem withHypers_of_same {p q : Prim} (hn : p.kind ≠ .normalUC) (h : SameButHypers p q) {c : Dict String ℝ}
    (hk : HypersOk p.kind c) : Prim.withHypers c q = Prim.withHypers c p := by
  refine Prim.eq_of_hypers (by rw [Prim.withHypers_kind]; exact hn)
    (((Prim.setHypers_same p c).symm.trans h).trans (Prim.setHypers_same q c)) fun n hn' => ?_
  rw [Prim.withHypers_kind] at hn'
  have h1 := ((Props.C18_setHypers p c).2.1 hk).1 n hn'
  have h2 := ((Props.C18_setHypers q c).2.1 (by rw [h.kind]; exact hk)).1 n (by rw [h.kind]; exact hn')
  exact h2.trans h1.symm

theorem map_withHypers_of_same (hn : k ≠ .normalUC) {qs : List Prim} (h : SameList ps qs) (hp : AllOf k ps)
    {c : Dict String ℝ} (hk : HypersOk k c) : qs.map (Prim.withHypers c) = ps.map (Prim.withHypers c) := by
  induction h with
  | nil => rfl
  | cons a _ ih =>
    have h1 := (hp _ List.mem_cons_self).2
    rw [List.map_cons, List.map_cons, ih fun q hq => hp q (List.mem_cons_of_mem _ hq),
      withHypers_of_same (by rw [h1]; exact hn) a (by rw [h1]; exact hk)]

theorem allOf_same {qs : List Prim} (h : SameList ps qs) (hg : ∀ q ∈ qs, q.Good) (hp : AllOf k ps) : AllOf k qs := by
  induction h with
  | nil => exact fun _ h => by cases h
  | cons a _ ih =>
    intro q hq
    rcases List.mem_cons.1 hq with rfl | hq
    · exact ⟨hg _ List.mem_cons_self, a.kind.trans (hp _ List.mem_cons_self).2⟩
    · exact ih (fun q hq => hg q (List.mem_cons_of_mem _ hq)) (fun q hq => hp q (List.mem_cons_of_mem _ hq)) q hq

theorem transitionHypers_run (hn : k ≠ .normalUC) (hp : AllOf k ps) (hne : ps ≠ [])
    (hg : ∀ n ∈ hyperNames k, LegalGrid grids n) (g : Rng) : ∃ h' g', HypersOk k h' ∧
      transitionHypers grids (ps, g) = (.ok h', (ps.map (Prim.withHypers h'), g')) := by
  obtain ⟨p, qs, rfl⟩ := List.exists_cons_of_ne_nil hne
  obtain ⟨hpg, hpk⟩ := hp p List.mem_cons_self
  have hkn : p.kind ≠ .normalUC := by rw [hpk]; exact hn
  have hkeys : Dict.keys p.getHypers = hyperNames k := by rw [Prim.keys_getHypers hkn, hpk]
  have hok : HypersOk k p.getHypers := by
    have := Prim.hypersOk_getHypers hpg.2 hkn
    rwa [hpk] at this
  obtain ⟨ns, g1, e0, hperm⟩ := permutation_ok (hyperNames k) g
  obtain ⟨h', ps1, g2, e1, k1, k2⟩ := transitionHypersLoop_ok (k := k) (grids := grids) ns
    (fun n hn => hg n (hperm.mem_iff.1 hn)) hok hp g1
  have hsame := transitionHypersLoop_same grids ns p.getHypers (p :: qs) g1
  rw [e1] at hsame
  refine ⟨h', g2, k1, ?_⟩
  unfold transitionHypers
  rw [Py.get_bind]
  dsimp only
  rw [Py.assert_bind_pos (sameClass_of_allOf fun p h => (hp p h).2), hkeys, Py.bind_apply]
  simp only [Py.onSnd]
  rw [e0]
  dsimp only
  rw [Py.bind_apply, e1]
  dsimp only
  rw [Py.bind_apply, each_setHypers_ok k1 ps1 (fun q hq => (k2 q hq).2), map_withHypers_of_same hn hsame hp k1]
  rfl

/-- The chances of the outcomes of `transition_hypers`. -/
noncomputable def hypersKernel (ps : List Prim) (grids : Dict String (List ℝ)) (names : List String) (h : Dict String ℝ)
    (F : Dict String ℝ → ENNReal) : ENNReal :=
  overOrders (names.length - 1) names fun ns => kernels (gridKernel (weight ps) grids) ns h F

theorem hypers_law (hμ : IsDraw μ) (hn : k ≠ .normalUC) (hp : AllOf k ps) (hg : ∀ n ∈ hyperNames k, LegalGrid grids n)
    {h : Dict String ℝ} (hh : ps.head?.map Prim.getHypers = some h) {Φ : Dict String ℝ → List Prim → Set Rng}
    {F : Dict String ℝ → ENNReal} (hΦ : ∀ h', FullHypers k h' → MeasurableSet (Φ h' (ps.map (Prim.withHypers h'))) ∧
      Pr μ (Φ h' (ps.map (Prim.withHypers h'))) = F h') :
    MeasurableSet {g | ∃ h' ps' g', transitionHypers grids (ps, g) = (.ok h', (ps', g')) ∧ g' ∈ Φ h' ps'} ∧
    Pr μ {g | ∃ h' ps' g', transitionHypers grids (ps, g) = (.ok h', (ps', g')) ∧ g' ∈ Φ h' ps'} =
      hypersKernel ps grids (hyperNames k) h F := by
  cases ps with
  | nil => cases hh
  | cons p qs =>
  cases hh
  obtain ⟨hpg, hpk⟩ := hp p List.mem_cons_self
  have hkn : p.kind ≠ .normalUC := by rw [hpk]; exact hn
  have hkeys : Dict.keys p.getHypers = hyperNames k := by rw [Prim.keys_getHypers hkn, hpk]
  have hok : HypersOk k p.getHypers := by
    have := Prim.hypersOk_getHypers hpg.2 hkn
    rwa [hpk] at this
  have hset : {g | ∃ h' ps' g', transitionHypers grids (p :: qs, g) = (.ok h', (ps', g')) ∧ g' ∈ Φ h' ps'} =
      {g | ∃ ns g1, permutation (hyperNames k) g = (.ok ns, g1) ∧ g1 ∈ {g1 | ∃ h' ps1 g', transitionHypersLoop grids ns
        p.getHypers (p :: qs, g1) = (.ok h', (ps1, g')) ∧ g' ∈ Φ h' ((p :: qs).map (Prim.withHypers h'))}} := by
    ext g
    rw [Set.mem_ofPred_eq, Set.mem_ofPred_eq]
    obtain ⟨ns, g1, e0, hperm⟩ := permutation_ok (hyperNames k) g
    obtain ⟨h', ps1, g2, e1, k1, k2⟩ := transitionHypersLoop_ok (k := k) (grids := grids) ns
      (fun n hn => hg n (hperm.mem_iff.1 hn)) hok hp g1
    have hsame := transitionHypersLoop_same grids ns p.getHypers (p :: qs) g1
    rw [e1] at hsame
    have e : transitionHypers grids (p :: qs, g) = (.ok h', ((p :: qs).map (Prim.withHypers h'), g2)) := by
      unfold transitionHypers
      rw [Py.get_bind]
      dsimp only
      rw [Py.assert_bind_pos (sameClass_of_allOf fun p h => (hp p h).2), hkeys, Py.bind_apply]
      simp only [Py.onSnd]
      rw [e0]
      dsimp only
      rw [Py.bind_apply, e1]
      dsimp only
      rw [Py.bind_apply, each_setHypers_ok k1 ps1 (fun q hq => (k2 q hq).2), map_withHypers_of_same hn hsame hp k1]
      rfl
    rw [e, e0]
    constructor
    · rintro ⟨_, _, _, h1, h2⟩
      cases h1
      exact ⟨ns, g1, rfl, h', ps1, g2, e1, h2⟩
    · rintro ⟨_, _, h1, h2, ps2, g3, h3, h4⟩
      cases h1
      rw [e1] at h3
      cases h3
      exact ⟨_, _, _, rfl, h4⟩
  rw [hset]
  have hloop : ∀ ns : List String, ns.Perm (hyperNames k) → _ := fun ns hns =>
    loop_law (μ := μ) hμ (grids := grids) hp ns (fun n h => hns.mem_iff.1 h) (fun n h => hg n (hns.mem_iff.1 h)) ⟨hok, hkeys⟩ (SameList.refl _) hp
      (Φ := fun h' => Φ h' ((p :: qs).map (Prim.withHypers h'))) hΦ
  obtain ⟨h1, h2⟩ := permutation_law hμ (hyperNames_nodup k) (Ψ := fun ns => {g1 | ∃ h' ps1 g', transitionHypersLoop grids ns
        p.getHypers (p :: qs, g1) = (.ok h', (ps1, g')) ∧ g' ∈ Φ h' ((p :: qs).map (Prim.withHypers h'))})
    fun ns hns => (hloop ns hns).1
  refine ⟨h1, h2.trans ?_⟩
  exact overOrders_congr _ _ fun ns hns => (hloop ns hns).2

/-- A mean over orders of steps that keep the weights keeps them. -/
theorem Keeps.overOrders {S B : Type} [DecidableEq B] {G : S → Prop} {R : S → S → Prop} {vs : List S} {π : S → ENNReal}
    {K : List B → S → (S → ENNReal) → ENNReal} {l : List B} (h : ∀ l', l'.Perm l → Keeps G R vs π (K l')) :
    Keeps G R vs π fun s F => Cgpm2.overOrders (l.length - 1) l fun l' => K l' s F := by
  intro F hF
  rw [overOrders_sum (l.length - 1) l vs π fun s l' => K l' s F,
    overOrders_congr _ _ (H' := fun _ => (vs.map fun u => π u * F u).sum) fun l' hl' => h l' hl' F hF]
  rcases hlen : l.length with _ | n
  · rfl
  · exact overOrders_const n hlen _

theorem Keeps.kernels_eq {S B : Type} {vs : List S} {G : S → Prop} {π : S → ENNReal} {K : B → S → (S → ENNReal) → ENNReal}
    {l : List B} (h : ∀ b ∈ l, Keeps G Eq vs π (K b)) : Keeps G Eq vs π (kernels K l) := by
  induction l with
  | nil => exact fun F _ => rfl
  | cons b l ih =>
    intro F hF
    exact (h b List.mem_cons_self _ fun _ _ _ _ e => by rw [e]).trans (ih (fun b hb => h b (List.mem_cons_of_mem _ hb)) F hF)

theorem hypers_keeps (ps : List Prim) (grids : Dict String (List ℝ)) (names : List String) :
    Keeps (· ∈ hyperCells grids) Eq (hyperCells grids) (weight ps) (hypersKernel ps grids names) := by
  rw [hyperCells_eq]
  exact Keeps.overOrders (K := fun ns => kernels (gridKernel (weight ps) grids) ns) fun ns _ =>
    Keeps.kernels_eq fun n _ => gridKernel_keeps (fun c _ => (weight_ne ps c).1) (fun c _ => (weight_ne ps c).2) n

end Cgpm2
