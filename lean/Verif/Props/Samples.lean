import Verif.Lemmas.ProductSamples
import Verif.Lemmas.ConcreteCrosscat
import Verif.Props.Density
import Verif.Lemmas.TidyLaws

/-!
# Properties C34, C35 and C70: what `simulate` returns
-/

namespace Cgpm2
open Spec

variable {Z : List Var} {n : Nat}

theorem Spec.SimQuery.simAsk {c : Cgpm n} {t : List Var} {cs : Dict Var Val} (h : SimQuery n c t cs) :
    SimAsk ((cgpmI n).outputs c) (Askable n c) t cs where
  ne := h.ne
  nodup := h.nodup
  out v hv := h.out v (by simp [hv])
  query := ⟨by simpa using h.nodup.sublist (List.sublist_append_right ..), fun kv hkv => h.out _ (by
      simp only [List.nil_append] at hkv
      exact List.mem_append_right _ (List.mem_map.2 ⟨kv, hkv, rfl⟩)), fun kv hkv => h.ok kv (by simpa using hkv)⟩

theorem exact_reg {c : Cgpm n} (hreg : (cgpmTab Z n).Reg c) {r : RowId}
    (hr : HoldsNothing (cgpmI n) c r ∨ NoNormalUC n c) {t : List Var} {cs : Dict Var Val}
    (ht : ∀ v ∈ t, v ∈ (cgpmI n).outputs c) {N : Option Nat} (hN : N ≠ some 0) {g : Rng} {out : SimOut}
    (ho : ((cgpmI n).simulate r t cs [] N (c, g)).1 = .ok out) : ExactSamples N t out :=
  cgpmSim Z n c r t cs N g out hreg
    (hr.imp_left (holdsNothing_iff (cgpmTLaws Z n) hreg r).1) ht hN ho

theorem simulates_reg {c : Cgpm n} (hreg : (cgpmTab Z n).Reg c) {r : RowId}
    (hr : HoldsNothing (cgpmI n) c r)
    {t : List Var} {cs : Dict Var Val} (hq : SimQuery n c t cs) {g : Rng} (hp : Positive c g r cs)
    {N : Option Nat} (hN : N ≠ some 0) :
    ∃ out, ((cgpmI n).simulate r t cs [] N (c, g)).1 = .ok out ∧ ExactSamples N t out := by
  have hf := (holdsNothing_iff (cgpmTLaws Z n) hreg r).1 hr
  obtain ⟨out, ho⟩ := cgpm_simulates Z n c r t cs N g hreg hf hq.simAsk (positive_lp hp) hN
  exact ⟨out, ho, exact_reg hreg (.inl hr) (fun v hv => hq.out v (by simp [hv])) hN ho⟩

namespace Props

/-- Whenever `simulate` answers, it answers with the number of samples asked for, and every sample
has exactly the targets as its keys.  Missing from the property: `N=0` (see `C34_zero_violated`)
and held rows of a model that contains a NormalUC (see `C34_normalUC_violated`). -/
theorem C34_exact_partial {c : Cgpm n} (h : Tidy Z n c) {r : RowId}
    (hr : HoldsNothing (cgpmI n) c r ∨ NoNormalUC n c) {t : List Var} {cs : Dict Var Val}
    (ht : ∀ v ∈ t, v ∈ (cgpmI n).outputs c) {N : Option Nat} (hN : N ≠ some 0) {g : Rng} {out : SimOut}
    (ho : ((cgpmI n).simulate r t cs [] N (c, g)).1 = .ok out) : ExactSamples N t out :=
  exact_reg (tidy_reg h) hr ht hN ho

/-- For a row that is not held, and constraints of positive probability, `simulate` answers. -/
theorem C34_total_partial {c : Cgpm n} (h : Tidy Z n c) {r : RowId} (hr : HoldsNothing (cgpmI n) c r)
    {t : List Var} {cs : Dict Var Val} (hq : SimQuery n c t cs) {g : Rng} (hp : Positive c g r cs)
    {N : Option Nat} (hN : N ≠ some 0) :
    ∃ out, ((cgpmI n).simulate r t cs [] N (c, g)).1 = .ok out ∧ ExactSamples N t out :=
  simulates_reg (tidy_reg h) hr hq hp hN

/-- A coin-divided mixture, asked for its cluster and column 3 given column 1. -/
example (r : RowId) (g : Rng) :
    Tidy [5] 2 (.finMix Concrete.finView : Node (Node Prim)) ∧
    HoldsNothing (cgpmI 2) (.finMix Concrete.finView : Node (Node Prim)) r ∧
    SimQuery 2 (.finMix Concrete.finView : Node (Node Prim)) [5, 3] [(1, .num 2)] ∧
    Positive (n := 2) (.finMix Concrete.finView : Node (Node Prim)) g r [(1, .num 2)] :=
  ⟨Concrete.finView_tidy, Concrete.finView_empty r,
    ⟨by simp, by simp [Dict.keys], by change ∀ v ∈ _, v ∈ [5, 3, 1]; simp [Dict.keys],
      fun kv hkv => Concrete.finView_askable (by simp at hkv; rw [hkv]; simp)⟩,
    .inr (C25_positive Concrete.finView_tidy (Concrete.finView_empty r) (by simp) (by simp [Dict.keys])
      (by change ∀ kv ∈ (_ : Dict Var Val), kv.1 ∈ [5, 3, 1]; simp)
      (fun kv hkv => Concrete.finView_plausible (by simp at hkv; simp [Concrete.query0, hkv])) g)⟩

/-- Asked for `N=0` samples of a row it does not hold, every mixture returns one. -/
theorem C34_zero_violated {c : Cgpm (n + 1)} (h : Tidy Z (n + 1) c) {z : Var} {supp : List Int}
    (hm : IsMixture c z supp) {r : RowId} (hr : HoldsNothing (cgpmI (n + 1)) c r)
    {t : List Var} {cs : Dict Var Val} (hq : SimQuery (n + 1) c t cs) (hz : z ∉ Dict.keys cs)
    {g : Rng} (hp : Positive c g r cs) :
    ∃ s, ((cgpmI (n + 1)).simulate r t cs [] (some 0) (c, g)).1 = .ok (.many [s]) := by
  obtain ⟨out, h1, h2, h3, -⟩ := C34_total_partial h hr hq hp (N := some 1) (by simp)
  have hf := (holdsNothing_iff (cgpmTLaws Z (n + 1)) (tidy_reg h) r).1 hr
  have he : ((cgpmI (n + 1)).simulate r t cs [] (some 0) (c, g)).1 =
      ((cgpmI (n + 1)).simulate r t cs [] (some 1) (c, g)).1 := by
    cases c with
    | prim p => exact hm.elim
    | product p => exact hm.elim
    | finArray p => exact hm.elim
    | flexArray p => exact hm.elim
    | finMix m =>
      have hz' : Dict.get? cs m.indexer = none := by
        rw [Dict.get?_eq_none_iff, RowMix.indexer, hm.1]; exact hz
      show (Py.inside _ (RowMix.simulate (finArrayI (cgpmI n)) r t cs [] (some 0)) (m, g)).1 =
        (Py.inside _ (RowMix.simulate (finArrayI (cgpmI n)) r t cs [] (some 1)) (m, g)).1
      rw [inside_fst, inside_fst]
      unfold RowMix.simulate
      rw [Py.get_bind, Py.get_bind]
      dsimp only
      rw [finMix_unheld hf]
      dsimp only
      rw [hz']
      rfl
    | flexMix m =>
      have hz' : Dict.get? cs m.indexer = none := by
        rw [Dict.get?_eq_none_iff, RowMix.indexer, hm.1]; exact hz
      show (Py.inside _ (RowMix.simulate (flexArrayI (cgpmI n)) r t cs [] (some 0)) (m, g)).1 =
        (Py.inside _ (RowMix.simulate (flexArrayI (cgpmI n)) r t cs [] (some 1)) (m, g)).1
      rw [inside_fst, inside_fst]
      unfold RowMix.simulate
      rw [Py.get_bind, Py.get_bind]
      dsimp only
      rw [flexMix_unheld hf]
      dsimp only
      rw [hz']
      rfl
  rw [he, h1]
  rcases out with s | l
  · exact False.elim h2
  · obtain ⟨s, hs⟩ := List.length_eq_one_iff.1 (show l.length = 1 from h3)
    exact ⟨s, by rw [hs]⟩

/-- Asked for `N` samples of a row it holds, a NormalUC returns one sample and not a list. -/
theorem C34_normalUC_violated {p : Prim} (hk : p.kind = .normalUC) {o : Var} (ho : p.outputs = [o])
    {r : RowId} {q : ℚ} (hr : Dict.get? p.data r = some (.num q)) (N : Nat) (g : Rng) :
    (p.simulate r [o] [] [] (some N) g).1 = .ok (.one [(o, .num q)]) := by
  cases p with
  | normalUC s =>
    have ho : s.outputs = [o] := ho
    have hr : Dict.get? s.data r = some (.num q) := hr
    show (NormalUC.simulate s r [o] [] [] (some N) g).1 = _
    unfold NormalUC.simulate
    rw [ho, Py.lift_bind]
    simp only [simulateGuard, ne_eq, not_true_eq_false, if_false]
    rw [Py.lift_bind]
    simp only [firstOutput]
    rw [hr]
    rfl
  | _ => simp [Prim.kind] at hk

/-- A NormalUC that holds a row. -/
example : LegallyReachable Concrete.normUC1 ∧ Concrete.normUC1.kind = .normalUC ∧
    Concrete.normUC1.outputs = [3] ∧ Dict.get? Concrete.normUC1.data (some 0) = some (.num (5/2)) :=
  ⟨Concrete.normUC1_legally, rfl, rfl, rfl⟩

/-- The cluster of a row that is not held is drawn from its posterior given the constraints: a
sample has cluster `k` with the probability that `logpdf` reports for `k`. -/
theorem C70_cluster {c : Cgpm (n + 1)} (h : Tidy Z (n + 1) c) {z : Var} {supp : List Int}
    (hm : IsMixture c z supp) {r : RowId} (hr : HoldsNothing (cgpmI (n + 1)) c r)
    {t : List Var} {cs : Dict Var Val} (hq : SimQuery (n + 1) c t cs) (hz : z ∈ t)
    {g : Rng} (hp : Positive c g r cs) {k : Int} (hk : k ∈ supp) :
    chance (fun u => ∃ s, ((cgpmI (n + 1)).simulate r t cs [] none (c, withUniform u g)).1 =
      .ok (.one s) ∧ Dict.get? s z = some (.num (k : ℚ))) =
    ENNReal.ofReal (prob (logpdfOf c g r [(z, .num (k : ℚ))] cs)) := by
  have hreg := tidy_reg h
  have hf := (holdsNothing_iff (cgpmTLaws Z (n + 1)) hreg r).1 hr
  obtain ⟨hn, W, w2, w3, w4, w5⟩ := mix_draws hreg hm hf hq.simAsk hz (positive_lp hp)
  have hW : prob (logpdfOf c g r [(z, .num (k : ℚ))] cs) = (W k).exp := by
    unfold logpdfOf
    rw [w4 k hk g]
    rfl
  rw [hW]
  refine chance_cluster hn w2 w3 (P := fun g' k => ∃ s, ((cgpmI (n + 1)).simulate r t cs [] none
    (c, g')).1 = .ok (.one s) ∧ Dict.get? s z = some (.num (k : ℚ))) (fun g' => ?_) g hk
  obtain ⟨i, s, e1, e2, e3, e4⟩ := w5 g'
  refine ⟨i, e1, e2, fun k => ⟨?_, ?_⟩⟩
  · rintro ⟨s', h1, h2⟩
    rw [e3] at h1
    cases h1
    rw [e4] at h2
    simpa using h2.symm
  · rintro rfl
    exact ⟨s, e3, e4⟩

/-- One block's columns in the samples of a product are the columns of the samples that the block
returns when asked alone, at the random state at which the product reaches it. -/
theorem C71_blocks {p : Product (Cgpm n)} (h : Tidy Z (n + 1) (.product p : Node (Cgpm n))) {r : RowId}
    (hr : HoldsNothing (cgpmI (n + 1)) (.product p : Node (Cgpm n)) r ∨
      NoNormalUC (n + 1) (.product p : Node (Cgpm n))) {t : List Var} {cs : Dict Var Val}
    {N : Option Nat} (hN : N ≠ some 0) {g : Rng} {out : SimOut}
    (ho : ((cgpmI (n + 1)).simulate r t cs [] N ((.product p : Node (Cgpm n)), g)).1 = .ok out)
    {b : Cgpm n} (hb : b ∈ p.cgpms) (hT : onlyVars ((cgpmI n).outputs b) t ≠ []) :
    ∃ g' out', ((cgpmI n).simulate r (onlyVars ((cgpmI n).outputs b) t)
        (only ((cgpmI n).outputs b) cs) [] N (b, g')).1 = .ok out' ∧
      ∀ v ∈ onlyVars ((cgpmI n).outputs b) t,
        (samplesOf out).map (fun s => Dict.get? s v) = (samplesOf out').map fun s => Dict.get? s v := by
  have hreg : (productTab (cgpmI n) (cgpmTab Z n)).Reg p := tidy_reg h
  refine product_column (g := g) (cgpmSim Z n) (Product.validate_nodup hreg.2.1) (fun c hc => ⟨hreg.1 c hc, ?_⟩) hN ?_ hb hT
  · rcases hr with hr | hr
    · exact .inl (product_fresh ((holdsNothing_iff (cgpmTLaws Z (n + 1)) (tidy_reg h) r).1 hr) c hc)
    · exact .inr (hr c hc)
  · have ho : (Py.inside _ (Product.simulate (cgpmI n) r t cs [] N) (p, g)).1 = .ok out := ho
    rwa [inside_fst] at ho

/-- The samples of a row that is not held come sorted by their cluster, whatever the random
state. -/
theorem C35_sorted {c : Cgpm (n + 1)} (h : Tidy Z (n + 1) c) {z : Var} {supp : List Int}
    (hm : IsMixture c z supp) {r : RowId} (hr : HoldsNothing (cgpmI (n + 1)) c r)
    {t : List Var} {cs : Dict Var Val} (ht : ∀ v ∈ t, v ∈ (cgpmI (n + 1)).outputs c) (hz : z ∈ t)
    (hcs : z ∉ Dict.keys cs) {N : Option Nat} (hN : N ≠ some 0) {g : Rng} {out : SimOut}
    (ho : ((cgpmI (n + 1)).simulate r t cs [] N (c, g)).1 = .ok out) :
    (samplesOf out).Pairwise fun a b => ∃ i j : Int, Dict.get? a z = some (.num (i : ℚ)) ∧
      Dict.get? b z = some (.num (j : ℚ)) ∧ i ≤ j := by
  have hreg := tidy_reg h
  exact mix_sorted hreg hm ((holdsNothing_iff (cgpmTLaws Z (n + 1)) hreg r).1 hr) ht hz hcs hN ho

/-- The property that fails: in the samples of a product the clusters of the blocks do not come in
independent order.  Whatever the random state, the clusters of every mixture among the blocks are
sorted, so that the ranks of the clusters of two blocks always agree. -/
theorem C35_violated {p : Product (Cgpm (n + 1))}
    (h : Tidy Z (n + 2) (.product p : Node (Cgpm (n + 1)))) {r : RowId}
    (hr : HoldsNothing (cgpmI (n + 2)) (.product p : Node (Cgpm (n + 1))) r)
    {b₁ b₂ : Cgpm (n + 1)} (hb₁ : b₁ ∈ p.cgpms) (hb₂ : b₂ ∈ p.cgpms) {z₁ z₂ : Var}
    {supp₁ supp₂ : List Int} (hm₁ : IsMixture b₁ z₁ supp₁) (hm₂ : IsMixture b₂ z₂ supp₂)
    {t : List Var} {cs : Dict Var Val} (hz₁ : z₁ ∈ t) (hz₂ : z₂ ∈ t)
    (hcs₁ : z₁ ∉ Dict.keys cs) (hcs₂ : z₂ ∉ Dict.keys cs) {N : Option Nat} (hN : N ≠ some 0)
    {g : Rng} {out : SimOut}
    (ho : ((cgpmI (n + 2)).simulate r t cs [] N ((.product p : Node (Cgpm (n + 1))), g)).1 = .ok out) :
    (samplesOf out).Pairwise fun a b => ∃ i₁ i₂ j₁ j₂ : Int,
      Dict.get? a z₁ = some (.num (i₁ : ℚ)) ∧ Dict.get? a z₂ = some (.num (i₂ : ℚ)) ∧
      Dict.get? b z₁ = some (.num (j₁ : ℚ)) ∧ Dict.get? b z₂ = some (.num (j₂ : ℚ)) ∧
      i₁ ≤ j₁ ∧ i₂ ≤ j₂ := by
  have hreg : (productTab (cgpmI (n + 1)) (cgpmTab Z (n + 1))).Reg p := tidy_reg h
  have key : ∀ b ∈ p.cgpms, ∀ z supp, IsMixture b z supp → z ∈ t → z ∉ Dict.keys cs →
      (samplesOf out).Pairwise fun a b => ∃ i j : Int, Dict.get? a z = some (.num (i : ℚ)) ∧
        Dict.get? b z = some (.num (j : ℚ)) ∧ i ≤ j := by
    intro b hb z supp hm hz hcs
    have hzb : z ∈ (cgpmI (n + 1)).outputs b := by
      cases b with
      | finMix m => exact List.mem_append_left _ (by rw [hm.1]; simp)
      | flexMix m => exact List.mem_append_left _ (by rw [hm.1]; simp)
      | _ => exact hm.elim
    have hzT : z ∈ onlyVars ((cgpmI (n + 1)).outputs b) t := mem_onlyVars.2 ⟨hz, hzb⟩
    obtain ⟨g', out', h1, h2⟩ := C71_blocks h (.inl hr) hN ho hb (List.ne_nil_of_mem hzT)
    have h3 := mix_sorted (hreg.1 b hb) hm (product_fresh ((holdsNothing_iff (cgpmTLaws Z (n + 2))
      (tidy_reg h) r).1 hr) b hb) (fun v hv => (mem_onlyVars.1 hv).2) hzT (fun hk => hcs (by
        obtain ⟨kv, hkv, rfl⟩ := List.mem_map.1 hk
        exact List.mem_map.2 ⟨kv, (List.mem_filter.1 hkv).1, rfl⟩)) hN h1
    have h4 : ((samplesOf out').map fun s => Dict.get? s z).Pairwise fun a b => ∃ i j : Int,
      a = some (.num (i : ℚ)) ∧ b = some (.num (j : ℚ)) ∧ i ≤ j := List.pairwise_map.2 h3
    rw [← h2 z hzT] at h4
    exact List.pairwise_map.1 h4
  refine ((key b₁ hb₁ z₁ supp₁ hm₁ hz₁ hcs₁).and (key b₂ hb₂ z₂ supp₂ hm₂ hz₂ hcs₂)).imp ?_
  rintro a b ⟨⟨i, j, h1, h2, h3⟩, i', j', h4, h5, h6⟩
  exact ⟨i, i', j, j', h1, h4, h2, h5, h3, h6⟩

/-- A product of two coin-divided mixtures, where each of the clusters 0 and 1 has positive
probability in either block: independent draws would put cluster 1 before cluster 0 in one block
and not in the other. -/
example (r : RowId) (g : Rng) (N : Nat) (hN : N ≠ 0) : ∃ out,
    Tidy [5, 6] 3 (.product Concrete.twoViews : Node (Node (Node Prim))) ∧
    HoldsNothing (cgpmI 3) (.product Concrete.twoViews : Node (Node (Node Prim))) r ∧
    ((cgpmI 3).simulate r [5, 6] [] [] (some N) ((.product Concrete.twoViews : Node (Node (Node Prim))), g)).1
      = .ok out ∧ (samplesOf out).length = N := by
  have hq : SimQuery 3 (.product Concrete.twoViews : Node (Node (Node Prim))) [5, 6] [] :=
    ⟨by simp, by simp [Dict.keys], by change ∀ v ∈ _, v ∈ [5, 3, 1, 6, 2]; simp [Dict.keys], by simp⟩
  obtain ⟨out, h1, -, h2, -⟩ := C34_total_partial Concrete.twoViews_tidy (Concrete.twoViews_empty r) hq
    (g := g) (.inl rfl) (N := some N) (by simpa using hN)
  exact ⟨out, Concrete.twoViews_tidy, Concrete.twoViews_empty r, h1, h2⟩

example (r : RowId) (g : Rng) (k : Int) (hk : k = 0 ∨ k = 1) :
    Finite (logpdfOf (n := 2) (.finMix Concrete.coinView : Node (Node Prim)) g r [(6, .num (k : ℚ))] []) := by
  refine C25_positive Concrete.coinView_tidy ?_ (by simp) (by simp [Dict.keys])
    (by change ∀ kv ∈ (_ : Dict Var Val), kv.1 ∈ [6, 2]; simp) ?_ g
  · exact Concrete.coinView_empty r
  · intro kv hkv
    obtain rfl : kv = (6, .num (k : ℚ)) := by simpa using hkv
    exact Concrete.coinView_plausible hk

end Props
end Cgpm2
