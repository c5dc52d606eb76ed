import Verif.Lemmas.Density

/-!
# The density of a mixture (helpers)
-/

namespace Cgpm2
open Spec

/-- The predictive distribution of a divider over its support. -/
theorem Prim.prior {d : Prim} (hd : Divides d) (h : d.Good) {x : Var} (hx : d.outputs = [x])
    {r : RowId} (hr : Dict.get? d.data r = none) : ∃ (supp : List Int) (w : Int → ℝ),
      d.support = .ok supp ∧
      (∀ k ∈ supp, d.logpdf r [(x, .num (k : ℚ))] [] [] = .ok (.fin (w k)) ∧
        d.Legal (.num (k : ℚ))) ∧
      (supp.map fun k => Real.exp (w k)).sum = 1 ∧
      (∀ k : Int, d.Legal (.num (k : ℚ)) → k ∈ supp) := by
  have hr' : r ∉ Dict.keys d.data := (Dict.get?_eq_none_iff _ _).1 hr
  have hex : ∀ k : Int, d.Legal (.num (k : ℚ)) → ∃ y : ℝ, d.pred (k : ℚ) = .fin y := fun k hk =>
    ⟨_, (Prim.pred_legal h.1 h.2 hr' hk).choose_spec.1⟩
  classical
  let w : Int → ℝ := fun k => if hk : d.Legal (.num (k : ℚ)) then (hex k hk).choose else 0
  have hw : ∀ k : Int, d.Legal (.num (k : ℚ)) → d.pred (k : ℚ) = .fin (w k) := by
    intro k hk
    simp only [w, dif_pos hk]
    exact (hex k hk).choose_spec
  have hlp : ∀ k : Int, d.Legal (.num (k : ℚ)) →
      d.logpdf r [(x, .num (k : ℚ))] [] [] = .ok (.fin (w k)) := by
    intro k hk
    rw [Prim.logpdf_num h.1 h.2 hx hr', hw k hk]
  have hexp : ∀ k : Int, d.Legal (.num (k : ℚ)) → Real.exp (w k) = (d.pred (k : ℚ)).exp := by
    intro k hk
    rw [hw k hk]; rfl
  cases d with
  | crp c =>
    have hI : c.Inv := h.1
    have ha : 0 < c.alpha := h.2
    have hN := Crp.N_nonneg hI
    have hd : (0 : ℝ) < (c.N : ℝ) + c.alpha := by linarith
    have hleg : ∀ k : Int, (Prim.crp c).Legal (.num (k : ℚ)) ↔ k ∈ c.support := by
      intro k
      constructor
      · rintro ⟨q, hq, h⟩
        cases hq
        rwa [truncate_intCast] at h
      · intro h
        exact ⟨k, rfl, by rwa [truncate_intCast]⟩
    refine ⟨c.support, w, rfl, fun k hk => ⟨hlp k ((hleg k).2 hk), (hleg k).2 hk⟩, ?_,
      fun k hk => (hleg k).1 hk⟩
    have : (c.support.map fun k => Real.exp (w k))
        = c.support.map fun t => c.weight t / ((c.N : ℝ) + c.alpha) := by
      apply List.map_congr_left
      intro t ht
      rw [hexp t ((hleg t).2 ht)]
      simp only [Prim.pred, truncate_intCast, if_pos ht, Fl.exp]
      exact Crp.exp_log_sub (Crp.weight_pos ha t) hd
    rw [this, sum_map_div, Crp.sum_weight hI, div_self hd.ne']
  | categorical c =>
    have hI : c.Inv := h.1
    have hL := h.2
    have hd := Categorical.denom_pos hI hL
    have hleg : ∀ i : Nat, i < c.k → (Prim.categorical c).Legal (.num (((i : Nat) : Int) : ℚ)) := by
      intro i hi
      exact ⟨i, hi, by simp⟩
    refine ⟨(List.range c.k).map fun i : Nat => (i : Int), w, rfl, ?_, ?_, ?_⟩
    · intro k hk
      obtain ⟨i, hi, rfl⟩ := List.mem_map.1 hk
      have := hleg i (List.mem_range.1 hi)
      exact ⟨hlp _ this, this⟩
    · rw [List.map_map]
      have : (List.range c.k).map ((fun k : Int => Real.exp (w k)) ∘ fun i : Nat => (i : Int))
          = (List.range c.k).map fun i => (c.alpha + c.cnt i) / ((c.N : ℝ) + c.alpha * c.k) := by
        apply List.map_congr_left
        intro i hi
        have hi' := List.mem_range.1 hi
        have h1 : (0 : ℝ) < c.alpha + c.cnt i := by
          have : (0 : ℝ) ≤ c.cnt i := by simp
          linarith [hL.1]
        have h2 := hlp _ (hleg i hi')
        have h3 := Categorical.logpdf_num hI hL hx hr' hi'
        have h4 : Fl.fin (w i) =
            .fin (Real.log (c.alpha + c.cnt i) - Real.log ((c.N : ℝ) + c.alpha * c.k)) := by
          have : (((i : Nat) : Int) : ℚ) = ((i : Nat) : ℚ) := by simp
          rw [this] at h2
          exact Except.ok.inj (h2.symm.trans h3)
        simp only [Function.comp_apply]
        rw [Fl.fin.inj h4, Crp.exp_log_sub h1 hd]
      rw [this, sum_map_div, Categorical.sum_alpha_cnt hI, div_self hd.ne']
    · rintro k ⟨i, hi, hk⟩
      refine List.mem_map.2 ⟨i, List.mem_range.2 hi, ?_⟩
      exact_mod_cast hk.symm
  | bernoulli c =>
    have hI : c.Inv := h.1
    have hL := h.2
    have hw' := Bernoulli.weight_pos hL
    have hd := add_pos (hw' false) (hw' true)
    have hl0 : (Prim.bernoulli c).Legal (.num ((0 : Int) : ℚ)) := .inl (by simp)
    have hl1 : (Prim.bernoulli c).Legal (.num ((1 : Int) : ℚ)) := .inr (by simp)
    refine ⟨[0, 1], w, rfl, ?_, ?_, ?_⟩
    · intro k hk
      simp only [List.mem_cons, List.not_mem_nil, or_false] at hk
      rcases hk with rfl | rfl
      · exact ⟨hlp _ hl0, hl0⟩
      · exact ⟨hlp _ hl1, hl1⟩
    · have h0 := hlp 0 hl0
      have h1 := hlp 1 hl1
      simp only [Int.cast_zero, Int.cast_one] at h0 h1
      have e0 := Fl.fin.inj (Except.ok.inj (h0.symm.trans
        (Bernoulli.logpdf_num hI hL hx hr' (q := 0) (Or.inl rfl))))
      have e1 := Fl.fin.inj (Except.ok.inj (h1.symm.trans
        (Bernoulli.logpdf_num hI hL hx hr' (q := 1) (Or.inr rfl))))
      simp only [List.map_cons, List.map_nil, List.sum_cons, List.sum_nil, add_zero]
      rw [e0, e1, Crp.exp_log_sub (hw' _) hd, Crp.exp_log_sub (hw' _) hd]
      simp only [zero_ne_one, decide_false, decide_true, ← add_div]
      exact div_self hd.ne'
    · intro k hk
      change (k : ℚ) = 0 ∨ (k : ℚ) = 1 at hk
      have : k = 0 ∨ k = 1 := by exact_mod_cast hk
      simpa using this
  | normal c => simp [Divides, Prim.kind] at hd
  | normalUC c => simp [Divides, Prim.kind] at hd
  | poisson c => simp [Divides, Prim.kind] at hd

theorem merged_append {t c : Dict Var Val} (h : (Dict.keys t ++ Dict.keys c).Nodup) :
    merged t c = t ++ c := by
  rw [List.nodup_append] at h
  unfold merged
  rw [Dict.update_nil_left t h.1]
  exact Dict.update_append_of_disjoint t c h.2.1 fun k hk hk' => h.2.2 k hk' k hk rfl

theorem zipWith_map_map {α β γ δ : Type} (f : β → γ → δ) (g : α → β) (h : α → γ) (l : List α) :
    List.zipWith f (l.map g) (l.map h) = l.map fun a => f (g a) (h a) := by
  induction l with
  | nil => rfl
  | cons a l ih => simp [ih]

section
variable {A S : Type}

/-- What is known of a mixture and of a row it does not hold. -/
structure MixAt (AI : Iface A) (I : Iface S) (MA : Sem A) (R : Arr A S) (m : RowMix A) (r : RowId)
    (supp : List Int) (w : Int → ℝ) (C : Int → S) (OK : Var → Val → Prop) : Prop where
  support : m.rowDivide.support = .ok supp
  prior : ∀ k ∈ supp, m.rowDivide.logpdf r [(m.indexer, .num (k : ℚ))] [] [] = .ok (.fin (w k))
  sum : (supp.map fun k => Real.exp (w k)).sum = 1
  get : ∀ k ∈ supp, R.get m.array (.num (k : ℚ)) = some (C k)
  outs : ∀ k ∈ supp, I.outputs (C k) = AI.outputs m.array
  dens : ∀ k ∈ supp, Dens I r (C k) OK
  refl : RowMix.E0 MA m m
  inv : MA.Inv m.array
  out : m.rowDivide.outputs = [m.indexer]
  x_eq : R.x m.array = m.indexer
  x_out : m.indexer ∉ AI.outputs m.array
  held : Dict.get? m.rowidToComponent r = none

/-- The queries of a mixture: its cluster is one of the support. -/
def mixOK (x : Var) (supp : List Int) (OK : Var → Val → Prop) (v : Var) (y : Val) : Prop :=
  (v = x → ∃ k ∈ supp, y = .num ((k : Int) : ℚ)) ∧ (v ≠ x → OK v y)

variable {AI : Iface A} {I : Iface S} {MA : Sem A} {M : Sem S} {R : Arr A S} {m : RowMix A}
  {r : RowId} {supp : List Int} {w : Int → ℝ} {C : Int → S} {OK : Var → Val → Prop}

/-- The log density of a component on its part of a query. -/
noncomputable def compLp (AI : Iface A) (I : Iface S) (m : RowMix A) (r : RowId) (C : Int → S)
    (k : Int) (t c : Dict Var Val) : Fl :=
  lp I r (C k) (only (AI.outputs m.array) t) (only (AI.outputs m.array) c)

/-- The joint density of cluster `k` and the rest of a query. -/
noncomputable def mixJz (AI : Iface A) (I : Iface S) (m : RowMix A) (r : RowId) (w : Int → ℝ)
    (C : Int → S) (k : Int) (u : Dict Var Val) : ℝ :=
  Real.exp (w k) * (compLp AI I m r C k u []).exp

/-- A value as a cluster. -/
def clusterOf : Val → Int
  | .num q => truncate q
  | .nan => 0

theorem clusterOf_int (k : Int) : clusterOf (.num (k : ℚ)) = k := truncate_intCast k

/-- The joint density of a query. -/
noncomputable def mixJ (AI : Iface A) (I : Iface S) (m : RowMix A) (r : RowId) (supp : List Int)
    (w : Int → ℝ) (C : Int → S) (u : Dict Var Val) : ℝ :=
  match Dict.get? u m.indexer with
  | some z => mixJz AI I m r w C (clusterOf z) u
  | none => (supp.map fun k => mixJz AI I m r w C k u).sum

namespace MixAt

theorem query (h : MixAt AI I MA R m r supp w C OK) {outs : List Var} {t c : Dict Var Val}
    (hq : IsQuery outs (mixOK m.indexer supp OK) t c) :
    IsQuery (AI.outputs m.array) OK (only (AI.outputs m.array) t) (only (AI.outputs m.array) c) :=
  let hq' := hq.only (AI.outputs m.array)
  hq'.mono hq'.out fun kv hk => (hq'.ok kv hk).2 fun he => h.x_out (he ▸ hq'.out kv hk)

theorem compQuery (h : MixAt AI I MA R m r supp w C OK) {outs : List Var} {t c : Dict Var Val}
    (hq : IsQuery outs (mixOK m.indexer supp OK) t c) {k : Int} (hk : k ∈ supp) :
    IsQuery (I.outputs (C k)) OK (only (AI.outputs m.array) t) (only (AI.outputs m.array) c) := by
  rw [h.outs k hk]; exact h.query hq

theorem comp_isLogP (h : MixAt AI I MA R m r supp w C OK) {outs : List Var} {t c : Dict Var Val}
    (hq : IsQuery outs (mixOK m.indexer supp OK) t c) {k : Int} (hk : k ∈ supp) :
    (compLp AI I m r C k t c).IsLogP := (h.dens k hk).isLogP _ _ (h.compQuery hq hk)

theorem comp_ratio (h : MixAt AI I MA R m r supp w C OK) {outs : List Var} {t c : Dict Var Val}
    (hq : IsQuery outs (mixOK m.indexer supp OK) t c) {k : Int} (hk : k ∈ supp) :
    compLp AI I m r C k (t ++ c) [] = compLp AI I m r C k t c + compLp AI I m r C k c [] := by
  unfold compLp
  rw [only_append]
  exact (h.dens k hk).ratio _ _ (h.compQuery hq hk)

theorem compVal (L : Laws I M) (LR : ArrLaws AI I MA M R) (h : MixAt AI I MA R m r supp w C OK) {outs : List Var}
    {t c : Dict Var Val}
    (hq : IsQuery outs (mixOK m.indexer supp OK) t c) {k : Int} (hk : k ∈ supp) (g : Rng) :
    RowMix.compVal AI m g r t c [] (.num (k : ℚ)) = .ok (compLp AI I m r C k t c) := by
  unfold RowMix.compVal
  split
  · next ht =>
    unfold compLp
    rw [show only (AI.outputs m.array) t = [] from ht, lp_nil]; rfl
  · next ht =>
    rw [show merged (only (m.outputsX AI) []) [(m.indexer, .num (k : ℚ))] =
      [(R.x m.array, .num (k : ℚ))] by rw [h.x_eq]; rfl]
    rw [LR.logpdf _ _ _ _ _ _ _ h.inv (h.get k hk)]
    exact lp_ok L.logpdf_noDraw (h.comp_isLogP hq hk) ht g

theorem priorVal (h : MixAt AI I MA R m r supp w C OK) {k : Int} (hk : k ∈ supp) :
    RowMix.priorVal m r [] (.num (k : ℚ)) = .ok (.fin (w k)) := h.prior k hk

theorem marginal (L : Laws I M) (LR : ArrLaws AI I MA M R) (h : MixAt AI I MA R m r supp w C OK) {outs : List Var}
    {t c : Dict Var Val} (hq : IsQuery outs (mixOK m.indexer supp OK) t c) (g : Rng)
    (hJ : (supp.map fun k => mixJz AI I m r w C k c).sum ≠ 0) :
    ∃ y : Fl, RowMix.marginalVal AI m g r t c [] = .ok y ∧ y.IsLogP ∧
      y.exp = (supp.map fun k => mixJz AI I m r w C k (t ++ c)).sum /
        (supp.map fun k => mixJz AI I m r w C k c).sum := by
  have hL : ∀ k ∈ supp, ((Fl.fin (w k) + compLp AI I m r C k c [])).IsLogP := fun k hk =>
    Fl.isLogP_add trivial (h.comp_isLogP hq.right hk)
  have hL' : ∀ x ∈ supp.map (fun k => Fl.fin (w k) + compLp AI I m r C k c []), x.IsLogP := by
    intro x hx
    obtain ⟨k, hk, rfl⟩ := List.mem_map.1 hx
    exact hL k hk
  have hsum : ((supp.map (fun k => Fl.fin (w k) + compLp AI I m r C k c [])).map Fl.exp).sum =
      (supp.map fun k => mixJz AI I m r w C k c).sum := by
    rw [List.map_map]
    congr 1
    apply List.map_congr_left
    intro k hk
    exact Fl.exp_add (Fl.isLogP_fin _) (h.comp_isLogP hq.right hk)
  set J := (supp.map fun k => mixJz AI I m r w C k c).sum with hJd
  have hJ0 : 0 < J := lt_of_le_of_ne (by rw [← hsum]; exact Fl.sum_exp_nonneg _) (Ne.symm hJ)
  have hlse := Fl.logsumexp_fin hL' (by rw [hsum]; exact hJ)
  rw [hsum] at hlse
  let post : Int → Fl := fun k => compLp AI I m r C k t c +
    ((Fl.fin (w k) + compLp AI I m r C k c []) - .fin (Real.log J))
  have hpost : ∀ k ∈ supp, (post k).IsLogP ∧
      (post k).exp = mixJz AI I m r w C k (t ++ c) / J := by
    intro k hk
    have h1 := h.comp_isLogP hq hk
    have h2 := h.comp_isLogP hq.right hk
    have h3 := Fl.isLogP_sub_fin (hL k hk) (Real.log J)
    refine ⟨Fl.isLogP_add h1 h3, ?_⟩
    simp only [post]
    rw [Fl.exp_add h1 h3, Fl.exp_sub_fin (hL k hk), Fl.exp_add (Fl.isLogP_fin _) h2, Real.exp_log hJ0]
    unfold mixJz
    rw [h.comp_ratio hq hk, Fl.exp_add h1 h2]
    simp only [Fl.exp]
    ring
  have hp : ∀ x ∈ supp.map post, x.IsLogP := by
    intro x hx
    obtain ⟨k, hk, rfl⟩ := List.mem_map.1 hx
    exact (hpost k hk).1
  refine ⟨Fl.logsumexp (supp.map post), ?_, Fl.isLogP_logsumexp hp, ?_⟩
  · unfold RowMix.marginalVal
    rw [h.support]
    dsimp only [Except.bind]
    rw [mapM_ok supp _ (fun k => Fl.fin (w k)) fun k hk => h.priorVal hk]
    dsimp only
    rw [mapM_ok supp _ (fun k => compLp AI I m r C k c []) fun k hk => h.compVal L LR hq.right hk g]
    dsimp only
    rw [mapM_ok supp _ (fun k => compLp AI I m r C k t c) fun k hk => h.compVal L LR hq hk g]
    dsimp only
    rw [zipWith_map_map, Fl.logNormalize, hlse, List.map_map, zipWith_map_map]
    rfl
  · rw [Fl.exp_logsumexp hp, List.map_map, ← sum_map_div]
    congr 1
    apply List.map_congr_left
    intro k hk
    exact (hpost k hk).2

theorem sum_nil (h : MixAt AI I MA R m r supp w C OK) :
    (supp.map fun k => mixJz AI I m r w C k []).sum = 1 := by
  rw [← h.sum]
  congr 1
  apply List.map_congr_left
  intro k hk
  unfold mixJz compLp
  rw [show only (AI.outputs m.array) [] = [] from rfl, lp_nil, Fl.exp_zero, mul_one]

theorem val_eq (L : Laws I M) (LR : ArrLaws AI I MA M R) (h : MixAt AI I MA R m r supp w C OK) {outs : List Var}
    {t c : Dict Var Val} (hq : IsQuery outs (mixOK m.indexer supp OK) t c) (g : Rng) (rec : Except Err Fl)
    (hrec : c ≠ [] → ∃ y, rec = .ok y ∧ y.IsLogP ∧ y.exp = mixJ AI I m r supp w C c)
    (hJ : mixJ AI I m r supp w C c ≠ 0) :
    ∃ y : Fl, RowMix.val AI m g r rec t c [] = .ok y ∧ y.IsLogP ∧
      y.exp = mixJ AI I m r supp w C (t ++ c) / mixJ AI I m r supp w C c := by
  have happ := Dict.get?_append t c m.indexer
  have hmem : ∀ {d : Dict Var Val} {z}, Dict.get? d m.indexer = some z → (∀ kv ∈ d, kv ∈ t ++ c) →
      ∃ k ∈ supp, z = .num ((k : Int) : ℚ) := fun hz hd =>
    (hq.ok _ (hd _ (Dict.mem_of_get? hz))).1 rfl
  unfold RowMix.val
  rcases ht : Dict.get? t m.indexer with _ | z <;> rw [ht] at happ <;> dsimp only at happ ⊢
  · rcases hc : Dict.get? c m.indexer with _ | z <;> rw [hc] at happ <;> dsimp only
    · have e1 : mixJ AI I m r supp w C (t ++ c) =
          (supp.map fun k => mixJz AI I m r w C k (t ++ c)).sum := by
        unfold mixJ; rw [happ]
      have e2 : mixJ AI I m r supp w C c = (supp.map fun k => mixJz AI I m r w C k c).sum := by
        unfold mixJ; rw [hc]
      rw [e2] at hJ
      rw [e1, e2]
      exact h.marginal L LR hq g hJ
    · obtain ⟨k, hk, rfl⟩ := hmem hc (fun kv hk => List.mem_append_right _ hk)
      have e1 : mixJ AI I m r supp w C (t ++ c) = mixJz AI I m r w C k (t ++ c) := by
        unfold mixJ; rw [happ]; dsimp only; rw [clusterOf_int]
      have e2 : mixJ AI I m r supp w C c = mixJz AI I m r w C k c := by
        unfold mixJ; rw [hc]; dsimp only; rw [clusterOf_int]
      rw [e2] at hJ
      rw [e1, e2, h.support]
      dsimp only [Except.bind]
      rw [if_neg (fun hn => hn ⟨k, hk, rfl⟩), merged_append hq.nodup,
        h.compVal L LR hq.joint hk g]
      dsimp only
      rw [h.compVal L LR hq.right hk g]
      dsimp only
      have h1 := h.comp_isLogP hq.joint hk
      have h2 := h.comp_isLogP hq.right hk
      have h3 : (compLp AI I m r C k c []).exp ≠ 0 := fun h0 => hJ (by
        unfold mixJz; rw [h0, mul_zero])
      obtain ⟨y, hy⟩ := (Fl.exp_pos_iff h2).1 (lt_of_le_of_ne (exp_nonneg _) (Ne.symm h3))
      refine ⟨_, rfl, ?_, ?_⟩
      · rw [hy]; exact Fl.isLogP_sub_fin h1 y
      · unfold mixJz
        rw [hy, Fl.exp_sub_fin h1]
        simp only [Fl.exp]
        rw [mul_div_mul_left _ _ (Real.exp_ne_zero _)]
  · obtain ⟨k, hk, rfl⟩ := hmem ht (fun kv hk => List.mem_append_left _ hk)
    have e1 : mixJ AI I m r supp w C (t ++ c) = mixJz AI I m r w C k (t ++ c) := by
      unfold mixJ; rw [happ]; dsimp only; rw [clusterOf_int]
    have h1 := h.comp_isLogP hq.joint hk
    rw [e1, h.priorVal hk]
    dsimp only [Except.bind]
    rw [merged_append hq.nodup, h.compVal L LR hq.joint hk g]
    dsimp only
    have h12 : (Fl.fin (w k) + compLp AI I m r C k (t ++ c) []).IsLogP := Fl.isLogP_add trivial h1
    by_cases hc : c ≠ []
    · obtain ⟨y, rfl, hy, he⟩ := hrec hc
      rw [if_pos hc]
      obtain ⟨x, rfl⟩ := (Fl.exp_pos_iff hy).1 (lt_of_le_of_ne (exp_nonneg _)
        (fun h0 => hJ (by rw [← he, ← h0])))
      refine ⟨_, rfl, Fl.isLogP_sub_fin h12 x, ?_⟩
      rw [Fl.exp_sub_fin h12, Fl.exp_add (Fl.isLogP_fin _) h1, ← he]
      rfl
    · have hc : c = [] := not_not.1 hc
      subst hc
      rw [if_neg (fun h => h rfl)]
      refine ⟨_, rfl, Fl.isLogP_sub_fin h12 0, ?_⟩
      have e2 : mixJ AI I m r supp w C [] = 1 := h.sum_nil
      rw [Fl.exp_sub_fin h12, Fl.exp_add (Fl.isLogP_fin _) h1, e2, Real.exp_zero]
      rfl

/-- The density of a mixture is the ratio of joint densities. -/
theorem ratio (L : Laws I M) (LA : Laws AI MA) (LR : ArrLaws AI I MA M R)
    (h : MixAt AI I MA R m r supp w C OK) {outs : List Var}
    {t c : Dict Var Val} (hq : IsQuery outs (mixOK m.indexer supp OK) t c) (g : Rng)
    (hJ : mixJ AI I m r supp w C c ≠ 0) :
    ∃ y : Fl, (RowMix.logpdf AI r t c [] (m, g)).1 = .ok y ∧ y.IsLogP ∧
      y.exp = mixJ AI I m r supp w C (t ++ c) / mixJ AI I m r supp w C c := by
  rw [RowMix.logpdf_val LA h.refl h.held]
  refine h.val_eq L LR hq g _ (fun _ => ?_) hJ
  have e2 : mixJ AI I m r supp w C [] = 1 := h.sum_nil
  have := h.val_eq L LR hq.right g (.error .typeError) (fun h => absurd rfl h) (by rw [e2]; simp)
  rw [e2, div_one] at this
  simpa using this

end MixAt

end

end Cgpm2
