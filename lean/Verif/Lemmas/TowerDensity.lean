import Verif.Lemmas.MixDensity
import Verif.Lemmas.Accept
import Verif.Spec.Density

/-!
# The density of models of any depth (helpers)

`WDens` is the rule for conditionals whose constraints have positive probability.
-/

namespace Cgpm2
open Spec

variable {S : Type}

structure WDens (I : Iface S) (r : RowId) (s : S) (OK : Var → Val → Prop) : Prop where
  isLogP : ∀ t c, IsQuery (I.outputs s) OK t c → lp I r s c [] ≠ .ninf → (lp I r s t c).IsLogP
  ratio : ∀ t c, IsQuery (I.outputs s) OK t c → lp I r s c [] ≠ .ninf →
    lp I r s (t ++ c) [] = lp I r s t c + lp I r s c []

theorem WDens.isLogP0 {I : Iface S} {r : RowId} {s : S} {OK : Var → Val → Prop}
    (h : WDens I r s OK) {t : Dict Var Val} (hq : IsQuery (I.outputs s) OK t []) :
    (lp I r s t []).IsLogP := h.isLogP t [] hq (by rw [lp_nil]; rintro ⟨⟩)

theorem Dens.weak {I : Iface S} {r : RowId} {s : S} {OK : Var → Val → Prop} (h : Dens I r s OK) :
    WDens I r s OK := ⟨fun t c hq _ => h.isLogP t c hq, fun t c hq _ => h.ratio t c hq⟩

theorem Dens.mono {I : Iface S} {r : RowId} {s : S} {OK OK' : Var → Val → Prop}
    (h : Dens I r s OK) (hk : ∀ v x, OK' v x → OK v x) : Dens I r s OK' :=
  ⟨fun t c hq => h.isLogP t c (hq.mono hq.out fun kv hkv => hk _ _ (hq.ok kv hkv)),
    fun t c hq => h.ratio t c (hq.mono hq.out fun kv hkv => hk _ _ (hq.ok kv hkv))⟩

theorem Full.mono {I : Iface S} {r : RowId} {s : S} {OK OK' : Var → Val → Prop}
    (h : Full I r s OK) (hk : ∀ v x, OK' v x → OK v x) : Full I r s OK' :=
  ⟨h.toDens.mono hk, fun t c hq => h.fin t c (hq.mono hq.out fun kv hkv => hk _ _ (hq.ok kv hkv))⟩

theorem WDens.mono {I : Iface S} {r : RowId} {s : S} {OK OK' : Var → Val → Prop}
    (h : WDens I r s OK) (hk : ∀ v x, OK' v x → OK v x) : WDens I r s OK' :=
  ⟨fun t c hq => h.isLogP t c (hq.mono hq.out fun kv hkv => hk _ _ (hq.ok kv hkv)),
    fun t c hq => h.ratio t c (hq.mono hq.out fun kv hkv => hk _ _ (hq.ok kv hkv))⟩

/-- Two objects that answer alike. -/
structure SameLp {S' : Type} (I : Iface S) (s : S) (I' : Iface S') (s' : S') (r : RowId) : Prop where
  outputs : I.outputs s = I'.outputs s'
  lp : ∀ t c, lp I r s t c = lp I' r s' t c

section
variable {S' : Type} {I : Iface S} {s : S} {I' : Iface S'} {s' : S'} {r : RowId}
  {OK : Var → Val → Prop}

theorem SameLp.dens (h : SameLp I s I' s' r) (hd : Dens I' r s' OK) : Dens I r s OK where
  isLogP t c hq := by
    rw [h.lp]; exact hd.isLogP t c (by rwa [← h.outputs])
  ratio t c hq := by
    simp only [h.lp]; exact hd.ratio t c (by rwa [← h.outputs])

theorem SameLp.full (h : SameLp I s I' s' r) (hd : Full I' r s' OK) : Full I r s OK where
  toDens := h.dens hd.toDens
  fin t c hq := by
    rw [h.lp]; exact hd.fin t c (by rwa [← h.outputs])

theorem SameLp.wdens (h : SameLp I s I' s' r) (hd : WDens I' r s' OK) : WDens I r s OK where
  isLogP t c hq := by
    simp only [h.lp]; exact hd.isLogP t c (by rwa [← h.outputs])
  ratio t c hq := by
    simp only [h.lp]; exact hd.ratio t c (by rwa [← h.outputs])
end

/-! ## Products -/

section
variable {I : Iface S} {M : Sem S}

theorem product_lp' (L : Laws I M) {p : Product S} {r : RowId} {t c : Dict Var Val}
    (hd : ∀ b ∈ p.cgpms, (lp I r b (only (I.outputs b) t) (only (I.outputs b) c)).IsLogP) :
    lp (productI I) r p t c =
      (p.cgpms.map fun b => lp I r b (only (I.outputs b) t) (only (I.outputs b) c)).sum := by
  by_cases ht : t = []
  · subst ht
    rw [lp_nil]
    symm
    apply List.sum_eq_zero
    intro x hx
    obtain ⟨b, -, rfl⟩ := List.mem_map.1 hx
    exact lp_nil ..
  · refine lp_of_ok ht ?_
    rw [Product.logpdf_eq I (fun r t c i s g => (L.logpdf_noDraw r t c i s g g).2.2)]
    rw [mapM_ok p.cgpms _ (fun b => lp I r b (only (I.outputs b) t) (only (I.outputs b) c))
      (fun b hb => ?_)]
    · change Except.ok (Fl.sum _) = _
      rw [Fl.sum_eq]
    · unfold blockLogpdf
      split
      · next h => rw [h, lp_nil]; rfl
      · next h =>
        rw [show only (I.inputs b) ([] : Dict Var Val) = [] from rfl]
        exact lp_ok L.logpdf_noDraw (hd b hb) h _

theorem product_wdens (L : Laws I M) {p : Product S} {r : RowId} {OK : Var → Val → Prop}
    (hd : ∀ b ∈ p.cgpms, WDens I r b OK) : WDens (productI I) r p OK := by
  have h0 : ∀ t c, IsQuery ((productI I).outputs p) OK t c → lp (productI I) r p c [] =
      (p.cgpms.map fun b => lp I r b (only (I.outputs b) c) []).sum := fun t c hq =>
    product_lp' (c := []) L fun b hb => (hd b hb).isLogP0 (hq.right.only _)
  have hpos : ∀ t c, IsQuery ((productI I).outputs p) OK t c → lp (productI I) r p c [] ≠ .ninf →
      ∀ b ∈ p.cgpms, lp I r b (only (I.outputs b) c) [] ≠ .ninf := by
    intro t c hq hne b hb hn
    have hall : ∀ x ∈ p.cgpms.map (fun b => lp I r b (only (I.outputs b) c) []), x.IsLogP := by
      intro x hx
      obtain ⟨b, hb, rfl⟩ := List.mem_map.1 hx
      exact (hd b hb).isLogP0 (hq.right.only _)
    have h1 := Fl.isLogP_sum hall
    rw [← h0 t c hq] at h1
    obtain ⟨x, hx⟩ : ∃ x, lp (productI I) r p c [] = .fin x := by
      rcases hl : lp (productI I) r p c [] with _ | _ | _ | x <;> rw [hl] at h1 hne
      · exact h1.elim
      · exact absurd rfl hne
      · exact h1.elim
      · exact ⟨x, rfl⟩
    rw [h0 t c hq, ← Fl.sum_eq] at hx
    obtain ⟨y, hy⟩ := (Fl.sum_fin_iff _).1 ⟨x, hx⟩ _ (List.mem_map.2 ⟨b, hb, rfl⟩)
    rw [hn] at hy
    cases hy
  constructor
  · intro t c hq hne
    have hb : ∀ b ∈ p.cgpms, (lp I r b (only (I.outputs b) t) (only (I.outputs b) c)).IsLogP :=
      fun b hb => (hd b hb).isLogP _ _ (hq.only _) (hpos t c hq hne b hb)
    rw [product_lp' L hb]
    apply Fl.isLogP_sum
    intro x hx
    obtain ⟨b, hb', rfl⟩ := List.mem_map.1 hx
    exact hb b hb'
  · intro t c hq hne
    have hb : ∀ b ∈ p.cgpms, (lp I r b (only (I.outputs b) t) (only (I.outputs b) c)).IsLogP :=
      fun b hb => (hd b hb).isLogP _ _ (hq.only _) (hpos t c hq hne b hb)
    rw [product_lp' L hb, h0 t c hq, product_lp' (c := []) L fun b hb => (hd b hb).isLogP0 (hq.joint.only _),
      ← List.sum_map_add]
    congr 1
    apply List.map_congr_left
    intro b hb
    rw [only_append]
    exact (hd b hb).ratio _ _ (hq.only _) (hpos t c hq hne b hb)

end

/-! ## Mixtures -/

section
variable {A : Type} {AI : Iface A} {I : Iface S} {MA : Sem A} {M : Sem S} {R : Arr A S}
  {m : RowMix A} {r : RowId} {supp : List Int} {w : Int → ℝ} {C : Int → S} {OK : Var → Val → Prop}
  {toM : RowMix A → Metadata} {fromM : Metadata → Except Err (RowMix A)}

namespace MixAt

theorem J_nil (h : MixAt AI I MA R m r supp w C OK) : mixJ AI I m r supp w C [] = 1 := h.sum_nil

theorem lp_ratio (L : Laws I M) (LA : Laws AI MA) (LR : ArrLaws AI I MA M R)
    (h : MixAt AI I MA R m r supp w C OK) {outs : List Var} {t c : Dict Var Val}
    (hq : IsQuery outs (mixOK m.indexer supp OK) t c) (hJ : mixJ AI I m r supp w C c ≠ 0) :
    (lp (rowMixI AI toM fromM) r m t c).IsLogP ∧ (lp (rowMixI AI toM fromM) r m t c).exp =
      mixJ AI I m r supp w C (t ++ c) / mixJ AI I m r supp w C c := by
  by_cases ht : t = []
  · subst ht
    rw [lp_nil]
    refine ⟨Fl.isLogP_zero, ?_⟩
    rw [Fl.exp_zero]
    exact (div_self hJ).symm
  · obtain ⟨y, h1, h2, h3⟩ := h.ratio L LA LR hq (fun _ => ⟨0, 0⟩) hJ
    rw [lp_of_ok ht (show ((rowMixI AI toM fromM).logpdf r t c [] (m, fun _ => ⟨0, 0⟩)).1 = .ok y
      from h1)]
    exact ⟨h2, h3⟩

theorem lp_joint (L : Laws I M) (LA : Laws AI MA) (LR : ArrLaws AI I MA M R)
    (h : MixAt AI I MA R m r supp w C OK) {outs : List Var} {t : Dict Var Val}
    (hq : IsQuery outs (mixOK m.indexer supp OK) t []) :
    (lp (rowMixI AI toM fromM) r m t []).IsLogP ∧ (lp (rowMixI AI toM fromM) r m t []).exp =
      mixJ AI I m r supp w C t := by
  have := h.lp_ratio (toM := toM) (fromM := fromM) L LA LR hq (by rw [h.J_nil]; simp)
  rw [h.J_nil, div_one] at this
  simpa using this

theorem wdens (L : Laws I M) (LA : Laws AI MA) (LR : ArrLaws AI I MA M R)
    (h : MixAt AI I MA R m r supp w C OK) :
    WDens (rowMixI AI toM fromM) r m (mixOK m.indexer supp OK) := by
  have hJ : ∀ t c, IsQuery ((rowMixI AI toM fromM).outputs m) (mixOK m.indexer supp OK) t c →
      lp (rowMixI AI toM fromM) r m c [] ≠ .ninf → mixJ AI I m r supp w C c ≠ 0 := by
    intro t c hq hne h0
    obtain ⟨h1, h2⟩ := h.lp_joint (toM := toM) (fromM := fromM) L LA LR hq.right
    rw [h0] at h2
    exact hne ((Fl.exp_eq_zero_iff h1).1 h2)
  constructor
  · intro t c hq hne
    exact (h.lp_ratio L LA LR hq (hJ t c hq hne)).1
  · intro t c hq hne
    obtain ⟨h1, h2⟩ := h.lp_joint (toM := toM) (fromM := fromM) L LA LR hq.right
    obtain ⟨h3, h4⟩ := h.lp_joint (toM := toM) (fromM := fromM) L LA LR hq.joint
    obtain ⟨h5, h6⟩ := h.lp_ratio (toM := toM) (fromM := fromM) L LA LR hq (hJ t c hq hne)
    refine Fl.exp_inj h3 (Fl.isLogP_add h5 h1) ?_
    rw [Fl.exp_add h5 h1, h2, h4, h6, div_mul_cancel₀ _ (hJ t c hq hne)]

theorem J_pos (h : MixAt AI I MA R m r supp w C OK) (hf : ∀ k ∈ supp, Full I r (C k) OK)
    {outs : List Var} {u : Dict Var Val} (hq : IsQuery outs (mixOK m.indexer supp OK) u []) :
    0 < mixJ AI I m r supp w C u := by
  have hz : ∀ k ∈ supp, 0 < mixJz AI I m r w C k u := by
    intro k hk
    obtain ⟨x, hx⟩ := (hf k hk).fin _ _ (h.compQuery hq hk)
    unfold mixJz compLp
    refine mul_pos (Real.exp_pos _) ?_
    rw [show only (AI.outputs m.array) [] = [] from rfl] at hx ⊢
    rw [hx]
    exact Real.exp_pos _
  unfold mixJ
  rcases hu : Dict.get? u m.indexer with _ | z <;> dsimp only
  · have hne : supp ≠ [] := by
      rintro rfl
      have := h.sum
      simp at this
    exact List.sum_pos _ (by
      intro x hx
      obtain ⟨k, hk, rfl⟩ := List.mem_map.1 hx
      exact hz k hk) (by simpa using hne)
  · obtain ⟨k, hk, rfl⟩ := (hq.ok _ (by simpa using Dict.mem_of_get? hu)).1 rfl
    rw [clusterOf_int]
    exact hz k hk

theorem full (L : Laws I M) (LA : Laws AI MA) (LR : ArrLaws AI I MA M R)
    (h : MixAt AI I MA R m r supp w C OK) (hf : ∀ k ∈ supp, Full I r (C k) OK) :
    Full (rowMixI AI toM fromM) r m (mixOK m.indexer supp OK) := by
  have hfin : ∀ t c, IsQuery ((rowMixI AI toM fromM).outputs m) (mixOK m.indexer supp OK) t c →
      ∃ x : ℝ, lp (rowMixI AI toM fromM) r m t c = .fin x := by
    intro t c hq
    have hc := h.J_pos hf hq.right
    obtain ⟨h1, h2⟩ := h.lp_ratio (toM := toM) (fromM := fromM) L LA LR hq hc.ne'
    refine (Fl.exp_pos_iff h1).1 ?_
    rw [h2]
    exact div_pos (h.J_pos hf hq.joint) hc
  have hw := h.wdens (toM := toM) (fromM := fromM) L LA LR
  have hne : ∀ t c, IsQuery ((rowMixI AI toM fromM).outputs m) (mixOK m.indexer supp OK) t c →
      lp (rowMixI AI toM fromM) r m c [] ≠ .ninf := by
    intro t c hq hn
    obtain ⟨x, hx⟩ := hfin c [] hq.right
    rw [hx] at hn
    cases hn
  exact ⟨⟨fun t c hq => hw.isLogP t c hq (hne t c hq), fun t c hq => hw.ratio t c hq (hne t c hq)⟩,
    hfin⟩

/-- Marginalising the cluster. -/
theorem total (L : Laws I M) (LA : Laws AI MA) (LR : ArrLaws AI I MA M R)
    (h : MixAt AI I MA R m r supp w C OK) {outs : List Var} {t c : Dict Var Val}
    (hq : IsQuery outs (mixOK m.indexer supp OK) t c)
    (ht : m.indexer ∉ Dict.keys t) (hcn : m.indexer ∉ Dict.keys c)
    (hJ : mixJ AI I m r supp w C c ≠ 0) :
    (∀ k ∈ supp, IsQuery (m.indexer :: outs) (mixOK m.indexer supp OK)
      (t ++ [(m.indexer, .num (k : ℚ))]) c) ∧
    (supp.map fun k : Int => (lp (rowMixI AI toM fromM) r m
      (t ++ [(m.indexer, .num (k : ℚ))]) c).exp).sum = (lp (rowMixI AI toM fromM) r m t c).exp := by
  have hk : ∀ k ∈ supp, IsQuery (m.indexer :: outs) (mixOK m.indexer supp OK)
      (t ++ [(m.indexer, .num (k : ℚ))]) c := by
    intro k hk
    refine ⟨?_, ?_, ?_⟩
    · have := hq.nodup
      rw [List.nodup_append] at this
      simp only [Dict.keys_append, List.nodup_append, List.mem_append]
      refine ⟨⟨this.1, by simp [Dict.keys], ?_⟩, this.2.1, ?_⟩
      · rintro a ha b hb rfl
        simp only [Dict.keys, List.map_cons, List.map_nil, List.mem_singleton] at hb
        exact ht (hb ▸ ha)
      · rintro a (ha | ha) b hb rfl
        · exact this.2.2 a ha a hb rfl
        · simp only [Dict.keys, List.map_cons, List.map_nil, List.mem_singleton] at ha
          exact hcn (ha ▸ hb)
    · intro kv hkv
      simp only [List.mem_append, List.mem_singleton] at hkv
      rcases hkv with (hkv | rfl) | hkv
      · exact List.mem_cons_of_mem _ (hq.out kv (by simp [hkv]))
      · simp
      · exact List.mem_cons_of_mem _ (hq.out kv (by simp [hkv]))
    · intro kv hkv
      simp only [List.mem_append, List.mem_singleton] at hkv
      rcases hkv with (hkv | rfl) | hkv
      · exact hq.ok kv (by simp [hkv])
      · exact ⟨fun _ => ⟨k, hk, rfl⟩, fun hn => absurd rfl hn⟩
      · exact hq.ok kv (by simp [hkv])
  refine ⟨hk, ?_⟩
  rw [(h.lp_ratio L LA LR hq hJ).2]
  have hgt : Dict.get? t m.indexer = none := (Dict.get?_eq_none_iff _ _).2 ht
  have hgc : Dict.get? c m.indexer = none := (Dict.get?_eq_none_iff _ _).2 hcn
  have e1 : mixJ AI I m r supp w C (t ++ c) = (supp.map fun k => mixJz AI I m r w C k (t ++ c)).sum := by
    unfold mixJ
    rw [Dict.get?_append, hgt]
    dsimp only
    rw [hgc]
  rw [e1, ← sum_map_div]
  congr 1
  apply List.map_congr_left
  intro k hks
  rw [(h.lp_ratio L LA LR (hk k hks) hJ).2]
  congr 1
  have e2 : only (AI.outputs m.array) (t ++ [(m.indexer, Val.num (k : ℚ))] ++ c) =
      only (AI.outputs m.array) (t ++ c) := by
    rw [only_append, only_append, only_append]
    have : only (AI.outputs m.array) [(m.indexer, Val.num (k : ℚ))] = [] := by
      simp [only, h.x_out]
    rw [this]
    simp
  unfold mixJ
  rw [Dict.get?_append, Dict.get?_append, hgt]
  simp only [Dict.get?_cons, if_true, clusterOf_int]
  unfold mixJz compLp
  rw [e2]

end MixAt

/-- What the books of a mixture say of a row it does not hold. -/
theorem MixReg.mixAt {X : Prim → Nat → Prop} {Z : List Var} {T : Tab S}
    (h : MixReg AI I MA X R Z T m) (LA : Laws AI MA) (hf : Dict.get? m.rowidToComponent r = none)
    (hG : ∀ z, m.rowDivide.Legal z → (∃ k : Int, z = .num (k : ℚ)) → ∃ c, R.get m.array z = some c)
    (hD : ∀ k c, R.get m.array k = some c → T.Reg c → T.Fresh c r → Dens I r c OK) :
    ∃ supp w C, MixAt AI I MA R m r supp w C OK := by
  obtain ⟨supp, w, h1, h2, h3, -⟩ := Prim.prior h.divides h.inv.1 h.out ((h.data r).trans hf)
  have hC : ∀ k : Int, ∃ c, k ∈ supp → R.get m.array (.num (k : ℚ)) = some c := by
    have hne : supp ≠ [] := by
      rintro rfl
      simp at h3
    obtain ⟨k0, hk0⟩ := List.exists_mem_of_ne_nil _ hne
    obtain ⟨c0, hc0⟩ := hG _ (h2 k0 hk0).2 ⟨k0, rfl⟩
    intro k
    by_cases hk : k ∈ supp
    · obtain ⟨c, hc⟩ := hG _ (h2 k hk).2 ⟨k, rfl⟩
      exact ⟨c, fun _ => hc⟩
    · exact ⟨c0, fun h => absurd h hk⟩
  choose C hC using hC
  exact ⟨supp, w, C, {
    support := h1
    prior := fun k hk => (h2 k hk).1
    sum := h3
    get := hC
    outs := fun k hk => (h.comp _ _ (hC k hk)).2
    dens := fun k hk => hD _ _ (hC k hk) (h.comp _ _ (hC k hk)).1
      (h.fresh r _ _ (hC k hk) (by rw [hf]; simp))
    refl := ⟨primLaws.refl _ h.inv.1, LA.refl _ h.inv.2.1, rfl⟩
    inv := h.inv.2.1
    out := h.out
    x_eq := h.x_eq
    x_out := h.x_out
    held := hf }⟩

theorem mixOK_of {x : Var} (hx : m.rowDivide.outputs = [x]) (hs : m.rowDivide.support = .ok supp)
    {v : Var} {y : Val} (h1 : v ∈ m.rowDivide.outputs → IsCluster m.rowDivide y)
    (h2 : OK v y) : mixOK x supp OK v y := by
  refine ⟨fun hv => ?_, fun _ => h2⟩
  obtain ⟨supp', k, e1, e2, e3⟩ := h1 (by simp [hx, hv])
  rw [hs] at e1
  cases e1
  exact ⟨k, e2, e3⟩

end

/-! ## Any depth -/

/-- Models of depth `n` keep densities. -/
structure DLaws (Z : List Var) (n : Nat) : Prop where
  full : ∀ c r, (cgpmTab Z n).Reg c → (cgpmTab Z n).Fresh c r → Full (cgpmI n) r c (Plausible n c)
  dens : ∀ c r, (cgpmTab Z n).Reg c → (cgpmTab Z n).Fresh c r → NoMixture n c →
    Dens (cgpmI n) r c (Askable n c)
  wdens : ∀ c r, (cgpmTab Z n).Reg c → (cgpmTab Z n).Fresh c r → WDens (cgpmI n) r c (Askable n c)

theorem primDLaws (Z : List Var) : DLaws Z 0 where
  full _ _ h hf := Prim.full h.1 (primTab_fresh h hf) fun _ hv _ hx => hx hv
  dens _ _ h hf _ := Prim.dens h.1 (primTab_fresh h hf) fun _ hv _ hx => hx hv
  wdens _ _ h hf := (Prim.dens h.1 (primTab_fresh h hf) fun _ hv _ hx => hx hv).weak

theorem Prim.plausible_askable {p : Prim} {v : Var} {x : Val} (h : v ∈ p.outputs →
    Accepts p x ∧ (x = .nan → p.kind ≠ .bernoulli ∧ p.kind ≠ .poisson)) :
    v ∈ p.outputs → p.kind = .crp → x ≠ .nan := by
  rintro hv hk rfl
  have := (h hv).1
  cases p <;> simp [Prim.kind] at hk
  exact this

theorem plausible_askable : ∀ (n : Nat) (c : Cgpm n) (v : Var) (x : Val), NoMixture n c →
    Plausible n c v x → Askable n c v x
  | 0, _, _, _, _, h => Prim.plausible_askable h
  | _ + 1, .prim _, _, _, _, h => Prim.plausible_askable h
  | n + 1, .product _, v, x, hm, h => fun c hc => plausible_askable n c v x (hm c hc) (h c hc)
  | _ + 1, .finArray _, _, _, hm, _ => hm.elim
  | _ + 1, .flexArray _, _, _, hm, _ => hm.elim
  | _ + 1, .finMix _, _, _, hm, _ => hm.elim
  | _ + 1, .flexMix _, _, _, hm, _ => hm.elim

/-- The values a component of a mixture may be asked about. -/
def CompOK (n : Nat) (c : Cgpm n) (v : Var) (x : Val) : Prop :=
  (NoMixture n c ∧ Askable n c v x) ∨ Plausible n c v x

theorem DLaws.comp {Z : List Var} {n : Nat} (D : DLaws Z n) {c : Cgpm n} {r : RowId}
    (h : (cgpmTab Z n).Reg c) (hf : (cgpmTab Z n).Fresh c r) : Dens (cgpmI n) r c (CompOK n c) := by
  by_cases hm : NoMixture n c
  · refine (D.dens c r h hf hm).mono fun v x hx => ?_
    rcases hx with hx | hx
    · exact hx.2
    · exact plausible_askable n c v x hm hx
  · refine (D.full c r h hf).toDens.mono fun v x hx => ?_
    rcases hx with hx | hx
    · exact absurd hx.1 hm
    · exact hx

section
variable {Z : List Var} {n : Nat}

/-- The components of a finite mixture. -/
theorem finMix_comps {m : FinMix (Cgpm n)}
    (h : (finMixTab (cgpmI n) (cgpmSem n) Z (cgpmTab Z n)).Reg m) {r : RowId}
    (hf : Dict.get? m.rowidToComponent r = none) {k : Val} {c : Cgpm n}
    (hc : finArr.get m.array k = some c) : ∃ c0 ∈ m.array.cgpms, (cgpmTab Z n).Reg c0 ∧
      (cgpmTab Z n).Fresh c0 r ∧ (cgpmSem n).E c0 c := by
  obtain ⟨j, -, hj, -⟩ := FinArray.get_some hc
  have hr := (h.comp k c hc).1
  exact ⟨c, List.mem_of_getElem? hj, hr, h.fresh r k c hc (by rw [hf]; simp),
    (cgpmLaws n).refl _ ((cgpmTLaws Z n).inv _ hr)⟩

/-- The components of a flexible mixture. -/
theorem flexMix_comps {m : FlexMix (Cgpm n)}
    (h : (flexMixTab (cgpmI n) (cgpmSem n) Z (cgpmTab Z n)).Reg m) {r : RowId}
    (hf : Dict.get? m.rowidToComponent r = none) {k : Val} {c : Cgpm n}
    (hc : (flexArr (cgpmSem n)).get m.array k = some c) :
    ∃ c0 ∈ m.array.base :: Dict.values m.array.cgpms, (cgpmTab Z n).Reg c0 ∧
      (cgpmTab Z n).Fresh c0 r ∧ (cgpmSem n).E c0 c := by
  have hr := (h.comp k c hc).1
  have hfr := h.fresh r k c hc (by rw [hf]; simp)
  have hc : m.array.comp (cgpmSem n) k = c := Option.some.inj hc
  unfold FlexArray.comp at hc
  rcases hk : Dict.get? m.array.cgpms k with _ | c1 <;> rw [hk] at hc
  · obtain ⟨b1, b2, b3⟩ := flexMix_base (cgpmLaws n) (cgpmTLaws Z n) h
    exact ⟨_, by simp, b1, b3 r, by rw [← hc]; exact b2⟩
  · have hc : c1 = c := hc
    subst hc
    exact ⟨c1, List.mem_cons_of_mem _ (List.mem_map.2 ⟨_, Dict.mem_of_get? hk, rfl⟩), hr, hfr,
      (cgpmLaws n).refl _ ((cgpmTLaws Z n).inv _ hr)⟩

theorem finMix_get {m : FinMix (Cgpm n)}
    (h : (finMixTab (cgpmI n) (cgpmSem n) Z (cgpmTab Z n)).Reg m) (z : Val)
    (hz : m.rowDivide.Legal z) (hw : ∃ k : Int, z = .num (k : ℚ)) :
    ∃ c, finArr.get m.array z = some c := by
  obtain ⟨j, hj, rfl⟩ := finX_get h.inv.2.2.2 hz hw
  have hj' : j < m.array.cgpms.length := by simpa [finArraySem, Shape.count] using hj
  exact ⟨m.array.cgpms[j], by
    simp only [finArr, natIndex_nat, Option.bind_some, List.getElem?_eq_getElem hj']⟩

theorem finMix_unheld {m : FinMix (Cgpm n)} {r : RowId}
    (hf : (finMixTab (cgpmI n) (cgpmSem n) Z (cgpmTab Z n)).Fresh m r) :
    Dict.get? m.rowidToComponent r = none :=
  MixReg.fresh_iff (AI := finArrayI (cgpmI n)) (I := cgpmI n) (MA := finArraySem (cgpmSem n))
    (X := FinX) (Z := Z) (T := cgpmTab Z n) (R := finArr) hf

theorem flexMix_unheld {m : FlexMix (Cgpm n)} {r : RowId}
    (hf : (flexMixTab (cgpmI n) (cgpmSem n) Z (cgpmTab Z n)).Fresh m r) :
    Dict.get? m.rowidToComponent r = none :=
  MixReg.fresh_iff (AI := flexArrayI (cgpmI n)) (I := cgpmI n)
    (MA := flexArraySem (cgpmI n) (cgpmSem n)) (X := fun _ _ => True) (Z := Z) (T := cgpmTab Z n)
    (R := flexArr (cgpmSem n)) hf

/-- The queries of a finite mixture. -/
def finOK (n : Nat) (OKc : Cgpm n → Var → Val → Prop) (m : FinMix (Cgpm n)) (v : Var) (x : Val) :
    Prop := ∀ c ∈ m.array.cgpms, OKc c v x

/-- The queries of a flexible mixture. -/
def flexOK (n : Nat) (OKc : Cgpm n → Var → Val → Prop) (m : FlexMix (Cgpm n)) (v : Var) (x : Val) :
    Prop := ∀ c ∈ m.array.base :: Dict.values m.array.cgpms, OKc c v x

theorem finMixAt {m : FinMix (Cgpm n)}
    (h : (finMixTab (cgpmI n) (cgpmSem n) Z (cgpmTab Z n)).Reg m) {r : RowId}
    (hf : (finMixTab (cgpmI n) (cgpmSem n) Z (cgpmTab Z n)).Fresh m r) {OKc : Cgpm n → Var → Val → Prop}
    (hD : ∀ c, (cgpmTab Z n).Reg c → (cgpmTab Z n).Fresh c r → Dens (cgpmI n) r c (OKc c)) :
    ∃ supp w C, MixAt (finArrayI (cgpmI n)) (cgpmI n) (finArraySem (cgpmSem n)) finArr m r supp w C
      (finOK n OKc m) := by
  refine MixReg.mixAt h (finArrayLaws (cgpmLaws n)) (finMix_unheld hf) (finMix_get h) ?_
  intro k c hc _ _
  obtain ⟨c0, h1, h2, h3, h4⟩ := finMix_comps h (finMix_unheld hf) hc
  exact ((hD c0 h2 h3).of_E (cgpmLaws n) h4).mono fun v x hx => hx c0 h1

theorem flexMixAt {m : FlexMix (Cgpm n)}
    (h : (flexMixTab (cgpmI n) (cgpmSem n) Z (cgpmTab Z n)).Reg m) {r : RowId}
    (hf : (flexMixTab (cgpmI n) (cgpmSem n) Z (cgpmTab Z n)).Fresh m r) {OKc : Cgpm n → Var → Val → Prop}
    (hD : ∀ c, (cgpmTab Z n).Reg c → (cgpmTab Z n).Fresh c r → Dens (cgpmI n) r c (OKc c)) :
    ∃ supp w C, MixAt (flexArrayI (cgpmI n)) (cgpmI n) (flexArraySem (cgpmI n) (cgpmSem n))
      (flexArr (cgpmSem n)) m r supp w C (flexOK n OKc m) := by
  refine MixReg.mixAt h (flexArrayLaws (cgpmLaws n)) (flexMix_unheld hf) (fun _ _ _ => ⟨_, rfl⟩) ?_
  intro k c hc _ _
  obtain ⟨c0, h1, h2, h3, h4⟩ := flexMix_comps h (flexMix_unheld hf) hc
  exact ((hD c0 h2 h3).of_E (cgpmLaws n) h4).mono fun v x hx => hx c0 h1

theorem finMix_wdens (D : DLaws Z n) {m : FinMix (Cgpm n)}
    (h : (finMixTab (cgpmI n) (cgpmSem n) Z (cgpmTab Z n)).Reg m) {r : RowId}
    (hf : (finMixTab (cgpmI n) (cgpmSem n) Z (cgpmTab Z n)).Fresh m r) :
    WDens (finMixI (cgpmI n)) r m (Askable (n + 1) (.finMix m : Node (Cgpm n))) := by
  obtain ⟨supp, w, C, hA⟩ := finMixAt (OKc := CompOK n) h hf fun c h1 h2 => D.comp h1 h2
  exact (hA.wdens (toM := FinMix.toMetadata (cgpmI n)) (fromM := FinMix.fromMetadata (cgpmI n))
    (cgpmLaws n) (finArrayLaws (cgpmLaws n)) (finArrLaws _ _)).mono
    fun v x hx => mixOK_of hA.out hA.support hx.1 hx.2

theorem flexMix_wdens (D : DLaws Z n) {m : FlexMix (Cgpm n)}
    (h : (flexMixTab (cgpmI n) (cgpmSem n) Z (cgpmTab Z n)).Reg m) {r : RowId}
    (hf : (flexMixTab (cgpmI n) (cgpmSem n) Z (cgpmTab Z n)).Fresh m r) :
    WDens (flexMixI (cgpmI n)) r m (Askable (n + 1) (.flexMix m : Node (Cgpm n))) := by
  obtain ⟨supp, w, C, hA⟩ := flexMixAt (OKc := CompOK n) h hf fun c h1 h2 => D.comp h1 h2
  exact (hA.wdens (toM := FlexMix.toMetadata (cgpmI n)) (fromM := FlexMix.fromMetadata (cgpmI n))
    (cgpmLaws n) (flexArrayLaws (cgpmLaws n)) (flexArrLaws (cgpmLaws n))).mono
    fun v x hx => mixOK_of hA.out hA.support hx.1 hx.2

theorem finMix_full (D : DLaws Z n) {m : FinMix (Cgpm n)}
    (h : (finMixTab (cgpmI n) (cgpmSem n) Z (cgpmTab Z n)).Reg m) {r : RowId}
    (hf : (finMixTab (cgpmI n) (cgpmSem n) Z (cgpmTab Z n)).Fresh m r) :
    Full (finMixI (cgpmI n)) r m (Plausible (n + 1) (.finMix m : Node (Cgpm n))) := by
  obtain ⟨supp, w, C, hA⟩ := finMixAt (OKc := Plausible n) h hf fun c h1 h2 => (D.full c r h1 h2).toDens
  refine (hA.full (toM := FinMix.toMetadata (cgpmI n)) (fromM := FinMix.fromMetadata (cgpmI n))
    (cgpmLaws n) (finArrayLaws (cgpmLaws n)) (finArrLaws _ _) fun k hk => ?_).mono
    fun v x hx => mixOK_of hA.out hA.support hx.1 hx.2
  obtain ⟨c0, h1, h2, h3, h4⟩ := finMix_comps h (finMix_unheld hf) (hA.get k hk)
  exact ((D.full c0 r h2 h3).of_E (cgpmLaws n) h4).mono fun v x hx => hx c0 h1

theorem flexMix_full (D : DLaws Z n) {m : FlexMix (Cgpm n)}
    (h : (flexMixTab (cgpmI n) (cgpmSem n) Z (cgpmTab Z n)).Reg m) {r : RowId}
    (hf : (flexMixTab (cgpmI n) (cgpmSem n) Z (cgpmTab Z n)).Fresh m r) :
    Full (flexMixI (cgpmI n)) r m (Plausible (n + 1) (.flexMix m : Node (Cgpm n))) := by
  obtain ⟨supp, w, C, hA⟩ := flexMixAt (OKc := Plausible n) h hf fun c h1 h2 => (D.full c r h1 h2).toDens
  refine (hA.full (toM := FlexMix.toMetadata (cgpmI n)) (fromM := FlexMix.fromMetadata (cgpmI n))
    (cgpmLaws n) (flexArrayLaws (cgpmLaws n)) (flexArrLaws (cgpmLaws n)) fun k hk => ?_).mono
    fun v x hx => mixOK_of hA.out hA.support hx.1 hx.2
  obtain ⟨c0, h1, h2, h3, h4⟩ := flexMix_comps h (flexMix_unheld hf) (hA.get k hk)
  exact ((D.full c0 r h2 h3).of_E (cgpmLaws n) h4).mono fun v x hx => hx c0 h1

theorem product_fresh {p : Product (Cgpm n)} {r : RowId}
    (hf : (productTab (cgpmI n) (cgpmTab Z n)).Fresh p r) : ∀ b ∈ p.cgpms, (cgpmTab Z n).Fresh b r := by
  intro b hb v
  have := hf v
  simp only [productTab] at this
  exact ProdTab.cell_none_iff.1 this b hb

theorem sameLp_prim (p : Prim) (r : RowId) :
    SameLp (cgpmI (n + 1)) (.prim p : Node (Cgpm n)) primI p r := ⟨rfl, fun _ _ => rfl⟩
theorem sameLp_product (p : Product (Cgpm n)) (r : RowId) :
    SameLp (cgpmI (n + 1)) (.product p : Node (Cgpm n)) (productI (cgpmI n)) p r :=
  ⟨rfl, fun _ _ => rfl⟩
theorem sameLp_finMix (p : FinMix (Cgpm n)) (r : RowId) :
    SameLp (cgpmI (n + 1)) (.finMix p : Node (Cgpm n)) (finMixI (cgpmI n)) p r :=
  ⟨rfl, fun _ _ => rfl⟩
theorem sameLp_flexMix (p : FlexMix (Cgpm n)) (r : RowId) :
    SameLp (cgpmI (n + 1)) (.flexMix p : Node (Cgpm n)) (flexMixI (cgpmI n)) p r :=
  ⟨rfl, fun _ _ => rfl⟩

theorem nodeDLaws (D : DLaws Z n) : DLaws Z (n + 1) where
  full c r h hf := by
    cases c with
    | prim p => exact (sameLp_prim p r).full ((primDLaws Z).full p r h hf)
    | product p =>
      refine (sameLp_product p r).full (product_full (cgpmLaws n) fun b hb => ?_)
      exact (D.full b r (h.1 b hb) (product_fresh hf b hb)).mono fun v x hx => hx b hb
    | finArray p => exact h.elim
    | flexArray p => exact h.elim
    | finMix m => exact (sameLp_finMix m r).full (finMix_full D h hf)
    | flexMix m => exact (sameLp_flexMix m r).full (flexMix_full D h hf)
  dens c r h hf hm := by
    cases c with
    | prim p => exact (sameLp_prim p r).dens ((primDLaws Z).dens p r h hf trivial)
    | product p =>
      refine (sameLp_product p r).dens (product_dens (cgpmLaws n) fun b hb => ?_)
      exact (D.dens b r (h.1 b hb) (product_fresh hf b hb) (hm b hb)).mono fun v x hx => hx b hb
    | finArray p => exact h.elim
    | flexArray p => exact h.elim
    | finMix m => exact hm.elim
    | flexMix m => exact hm.elim
  wdens c r h hf := by
    cases c with
    | prim p => exact (sameLp_prim p r).wdens ((primDLaws Z).wdens p r h hf)
    | product p =>
      refine (sameLp_product p r).wdens (product_wdens (cgpmLaws n) fun b hb => ?_)
      exact (D.wdens b r (h.1 b hb) (product_fresh hf b hb)).mono fun v x hx => hx b hb
    | finArray p => exact h.elim
    | flexArray p => exact h.elim
    | finMix m => exact (sameLp_finMix m r).wdens (finMix_wdens D h hf)
    | flexMix m => exact (sameLp_flexMix m r).wdens (flexMix_wdens D h hf)

end

theorem cgpmDLaws (Z : List Var) : (n : Nat) → DLaws Z n
  | 0 => primDLaws Z
  | n + 1 => nodeDLaws (cgpmDLaws Z n)

end Cgpm2
