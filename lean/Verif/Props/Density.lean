import Verif.Lemmas.TowerDensity
import Verif.Lemmas.ConcreteDensity
import Verif.Lemmas.TidyLaws

/-!
# Properties C23, C24 and C25: `logpdf` of mixtures and of models of any depth is a probability

All theorems are about a row of which the model holds nothing (in particular the hypothetical row
`None`), and about the queries `Query` describes.
-/

namespace Cgpm2
open Spec

/-- Marginalising the cluster of a mixture of any depth (helper). -/
theorem mix_total {Z : List Var} {n : Nat} {c : Cgpm n} (h : (cgpmTab Z n).Reg c) {z : Var}
    {supp : List Int} (hm : IsMixture c z supp) {r : RowId} (hr : (cgpmTab Z n).Fresh c r)
    {t cs : Dict Var Val} (hq : Query n c t cs) (hz : z ∉ Dict.keys t ++ Dict.keys cs)
    (hp : lp (cgpmI n) r c cs [] ≠ .ninf) :
    (∀ k ∈ supp, (lp (cgpmI n) r c (t ++ [(z, .num (k : ℚ))]) cs).IsLogP) ∧
    (supp.map fun k : Int => (lp (cgpmI n) r c (t ++ [(z, .num (k : ℚ))]) cs).exp).sum =
      (lp (cgpmI n) r c t cs).exp := by
  rw [List.mem_append, not_or] at hz
  have hq' : IsQuery ((cgpmI n).outputs c) (Askable n c) t cs := ⟨hq.nodup, hq.out, hq.ok⟩
  cases n with
  | zero => exact hm.elim
  | succ n =>
    have D := cgpmDLaws Z n
    have L := cgpmLaws n
    cases c with
    | prim p => exact hm.elim
    | product p => exact hm.elim
    | finArray p => exact hm.elim
    | flexArray p => exact hm.elim
    | finMix m =>
      obtain ⟨supp', w, C, hA⟩ := finMixAt (OKc := CompOK n) h hr fun c h1 h2 => D.comp h1 h2
      obtain ⟨e1, e2⟩ := hm
      obtain rfl : supp' = supp := Except.ok.inj (hA.support.symm.trans e2)
      obtain rfl : z = m.indexer := by simp [RowMix.indexer, e1]
      have hq2 := hq'.mono hq'.out fun kv hk =>
        mixOK_of (OK := finOK n (CompOK n) m) e1 e2 (hq'.ok kv hk).1 (hq'.ok kv hk).2
      have hlp := (sameLp_finMix m r).lp
      rw [hlp] at hp
      have hJ := hA.lp_joint (toM := FinMix.toMetadata (cgpmI n))
        (fromM := FinMix.fromMetadata (cgpmI n)) L (finArrayLaws L) (finArrLaws _ _) hq2.right
      have hJ0 : mixJ (finArrayI (cgpmI n)) (cgpmI n) m r supp' w C cs ≠ 0 := fun h0 =>
        hp ((Fl.exp_eq_zero_iff hJ.1).1 (hJ.2.trans h0))
      obtain ⟨h1, h2⟩ := hA.total (toM := FinMix.toMetadata (cgpmI n))
        (fromM := FinMix.fromMetadata (cgpmI n)) L (finArrayLaws L) (finArrLaws _ _) hq2 hz.1 hz.2 hJ0
      simp only [hlp]
      refine ⟨fun k hk => ?_, h2⟩
      exact (hA.lp_ratio (toM := FinMix.toMetadata (cgpmI n))
        (fromM := FinMix.fromMetadata (cgpmI n)) L (finArrayLaws L) (finArrLaws _ _) (h1 k hk) hJ0).1
    | flexMix m =>
      obtain ⟨supp', w, C, hA⟩ := flexMixAt (OKc := CompOK n) h hr fun c h1 h2 => D.comp h1 h2
      obtain ⟨e1, e2⟩ := hm
      obtain rfl : supp' = supp := Except.ok.inj (hA.support.symm.trans e2)
      obtain rfl : z = m.indexer := by simp [RowMix.indexer, e1]
      have hq2 := hq'.mono hq'.out fun kv hk =>
        mixOK_of (OK := flexOK n (CompOK n) m) e1 e2 (hq'.ok kv hk).1 (hq'.ok kv hk).2
      have hlp := (sameLp_flexMix m r).lp
      rw [hlp] at hp
      have hJ := hA.lp_joint (toM := FlexMix.toMetadata (cgpmI n))
        (fromM := FlexMix.fromMetadata (cgpmI n)) L (flexArrayLaws L) (flexArrLaws L) hq2.right
      have hJ0 : mixJ (flexArrayI (cgpmI n)) (cgpmI n) m r supp' w C cs ≠ 0 := fun h0 =>
        hp ((Fl.exp_eq_zero_iff hJ.1).1 (hJ.2.trans h0))
      obtain ⟨h1, h2⟩ := hA.total (toM := FlexMix.toMetadata (cgpmI n))
        (fromM := FlexMix.fromMetadata (cgpmI n)) L (flexArrayLaws L) (flexArrLaws L) hq2 hz.1 hz.2 hJ0
      simp only [hlp]
      refine ⟨fun k hk => ?_, h2⟩
      exact (hA.lp_ratio (toM := FlexMix.toMetadata (cgpmI n))
        (fromM := FlexMix.fromMetadata (cgpmI n)) L (flexArrayLaws L) (flexArrLaws L) (h1 k hk) hJ0).1

/-- `logpdf` as a number (helper). -/
theorem logpdfOf_eq {n : Nat} {c : Cgpm n} {r : RowId} {t cs : Dict Var Val} (ht : t ≠ [])
    (h : (lp (cgpmI n) r c t cs).IsLogP) (g : Rng) :
    logpdfOf c g r t cs = .ok (lp (cgpmI n) r c t cs) :=
  lp_ok (cgpmLaws n).logpdf_noDraw h ht g

/-- Positive constraints (helper). -/
theorem positive_lp {n : Nat} {c : Cgpm n} {g : Rng} {r : RowId} {cs : Dict Var Val}
    (hp : Positive c g r cs) : lp (cgpmI n) r c cs [] ≠ .ninf := by
  by_cases h0 : cs = []
  · subst h0
    rw [lp_nil]
    rintro ⟨⟩
  · rcases hp with hp | ⟨x, hx⟩
    · exact absurd hp h0
    · have : lp (cgpmI n) r c cs [] = .fin x := lp_of_ok h0 (by
        rw [← ((cgpmLaws n).logpdf_noDraw r cs [] [] c g (fun _ => ⟨0, 0⟩)).1]; exact hx)
      rw [this]
      rintro ⟨⟩

theorem positive_reg {n : Nat} {Z : List Var} {c : Cgpm n} (hreg : (cgpmTab Z n).Reg c) {r : RowId} (hr : HoldsNothing (cgpmI n) c r)
    {t cs : Dict Var Val} (ht : t ≠ []) (hn : (Dict.keys t ++ Dict.keys cs).Nodup)
    (ho : ∀ kv ∈ t ++ cs, kv.1 ∈ (cgpmI n).outputs c)
    (hp : ∀ kv ∈ t ++ cs, Plausible n c kv.1 kv.2) (g : Rng) : Finite (logpdfOf c g r t cs) := by
  have hf := (holdsNothing_iff (cgpmTLaws Z n) hreg r).1 hr
  obtain ⟨x, hx⟩ := ((cgpmDLaws Z n).full c r hreg hf).fin t cs ⟨hn, ho, hp⟩
  exact ⟨x, by rw [logpdfOf_eq ht (by rw [hx]; trivial) g, hx]⟩

namespace Props
variable {Z : List Var} {n : Nat}

/-! ## C25 conditionals are ratios of joint densities -/

/-- Without constraints, `logpdf` of any model returns a log-probability. -/
theorem C25_total {c : Cgpm n} (h : Tidy Z n c) {r : RowId} (hr : HoldsNothing (cgpmI n) c r)
    {t : Dict Var Val} (ht : t ≠ []) (hq : Query n c t []) (g : Rng) :
    ReturnsLogP (logpdfOf c g r t []) := by
  have hreg := tidy_reg h
  have hf := (holdsNothing_iff (cgpmTLaws Z n) hreg r).1 hr
  have h1 := ((cgpmDLaws Z n).wdens c r hreg hf).isLogP0 ⟨hq.nodup, hq.out, hq.ok⟩
  exact ⟨_, logpdfOf_eq ht h1 g, h1⟩

/-- Values of positive density have positive joint and conditional density, in models of any depth. -/
theorem C25_positive {c : Cgpm n} (h : Tidy Z n c) {r : RowId} (hr : HoldsNothing (cgpmI n) c r)
    {t cs : Dict Var Val} (ht : t ≠ []) (hn : (Dict.keys t ++ Dict.keys cs).Nodup)
    (ho : ∀ kv ∈ t ++ cs, kv.1 ∈ (cgpmI n).outputs c)
    (hp : ∀ kv ∈ t ++ cs, Plausible n c kv.1 kv.2) (g : Rng) : Finite (logpdfOf c g r t cs) :=
  positive_reg (tidy_reg h) hr ht hn ho hp g

/-- Given constraints of positive probability `exp y`, the conditional log density is the joint
one minus `y`: for primitives, products, mixtures and compositions of these to any depth, with or
without cluster variables among targets and constraints. -/
theorem C25_conditional {c : Cgpm n} (h : Tidy Z n c) {r : RowId} (hr : HoldsNothing (cgpmI n) c r)
    {t cs : Dict Var Val} (ht : t ≠ []) (hc : cs ≠ []) (hq : Query n c t cs) (g : Rng) {y : ℝ}
    (hp : logpdfOf c g r cs [] = .ok (.fin y)) :
    ∃ w : Fl, w.IsLogP ∧ logpdfOf c g r (t ++ cs) [] = .ok w ∧
      logpdfOf c g r t cs = .ok (w - .fin y) := by
  have hreg := tidy_reg h
  have hf := (holdsNothing_iff (cgpmTLaws Z n) hreg r).1 hr
  have W := (cgpmDLaws Z n).wdens c r hreg hf
  have hq' : IsQuery ((cgpmI n).outputs c) (Askable n c) t cs := ⟨hq.nodup, hq.out, hq.ok⟩
  have hne : lp (cgpmI n) r c cs [] ≠ .ninf := positive_lp (g := g) (.inr ⟨y, hp⟩)
  have hy : lp (cgpmI n) r c cs [] = .fin y := by
    have := logpdfOf_eq hc (W.isLogP0 hq'.right) g
    exact Except.ok.inj (this.symm.trans hp)
  have h1 := W.isLogP t cs hq' hne
  have h2 := W.isLogP0 hq'.joint
  have h3 := W.ratio t cs hq' hne
  have ht' : t ++ cs ≠ [] := by simp [ht]
  refine ⟨_, h2, logpdfOf_eq ht' h2 g, ?_⟩
  rw [logpdfOf_eq ht h1 g, h3, hy]
  congr 1
  rcases hl : lp (cgpmI n) r c t cs with _ | _ | _ | x <;> rw [hl] at h1
  · exact h1.elim
  · rfl
  · exact h1.elim
  · change Fl.fin x = Fl.fin (x + y + -y)
    simp

/-- The finite mixture of two blocks meets all hypotheses, with column 3 as target and the cluster
and column 1 as constraints. -/
example (r : RowId) (g : Rng) : Tidy [5] 2 (.finMix Concrete.finView : Node (Node Prim)) ∧
    HoldsNothing (cgpmI 2) (.finMix Concrete.finView : Node (Node Prim)) r ∧
    Query 2 (.finMix Concrete.finView : Node (Node Prim)) [(3, .num (1/2))] [(5, .num 1), (1, .num 2)] ∧
    ∃ y, logpdfOf (n := 2) (.finMix Concrete.finView : Node (Node Prim)) g r
      [(5, .num 1), (1, .num 2)] [] = .ok (.fin y) :=
  ⟨Concrete.finView_tidy, Concrete.finView_empty r, Concrete.finView_query,
    C25_positive Concrete.finView_tidy (Concrete.finView_empty r) (by simp) (by decide)
      (by change ∀ kv ∈ (_ : Dict Var Val), kv.1 ∈ [5, 3, 1]; simp)
      (fun kv hkv => Concrete.finView_plausible (by simp at hkv; simp [Concrete.query0, hkv])) g⟩

/-- So does a mixture of mixtures, with column 3 as target and both clusters and column 1 as
constraints. -/
example (r : RowId) (g : Rng) :
    Tidy [5, 6] 3 (.finMix Concrete.deepView : Node (Node (Node Prim))) ∧
    HoldsNothing (cgpmI 3) (.finMix Concrete.deepView : Node (Node (Node Prim))) r ∧
    Query 3 (.finMix Concrete.deepView : Node (Node (Node Prim))) [(3, .num (1/2))]
      [(6, .num 1), (5, .num 0), (1, .num 2)] ∧
    ∃ y, logpdfOf (n := 3) (.finMix Concrete.deepView : Node (Node (Node Prim))) g r
      [(6, .num 1), (5, .num 0), (1, .num 2)] [] = .ok (.fin y) :=
  ⟨Concrete.deepView_tidy, Concrete.deepView_empty r,
    ⟨by decide, by change ∀ kv ∈ (_ : Dict Var Val), kv.1 ∈ [6, 5, 3, 1]; simp, fun _ => Concrete.deepView_askable⟩,
    C25_positive Concrete.deepView_tidy (Concrete.deepView_empty r) (by simp) (by decide)
      (by change ∀ kv ∈ (_ : Dict Var Val), kv.1 ∈ [6, 5, 3, 1]; simp)
      (fun kv hkv => Concrete.deepView_plausible (by simp at hkv; simp [Concrete.query1, hkv])) g⟩

/-! ## C24 marginalising the cluster -/

/-- The density of targets that do not mention the cluster is the sum over the clusters of the
density of targets and cluster. -/
theorem C24_marginal {c : Cgpm n} (h : Tidy Z n c) {z : Var} {supp : List Int}
    (hm : IsMixture c z supp) {r : RowId} (hr : HoldsNothing (cgpmI n) c r)
    {t cs : Dict Var Val} (ht : t ≠ []) (hq : Query n c t cs)
    (hz : z ∉ Dict.keys t ++ Dict.keys cs) {g : Rng} (hp : Positive c g r cs) :
    ReturnsLogP (logpdfOf c g r t cs) ∧
    (∀ k ∈ supp, ReturnsLogP (logpdfOf c g r (t ++ [(z, .num (k : ℚ))]) cs)) ∧
    prob (logpdfOf c g r t cs) =
      (supp.map fun k : Int => prob (logpdfOf c g r (t ++ [(z, .num (k : ℚ))]) cs)).sum := by
  have hreg := tidy_reg h
  have hf := (holdsNothing_iff (cgpmTLaws Z n) hreg r).1 hr
  have hne := positive_lp hp
  obtain ⟨h1, h2⟩ := mix_total hreg hm hf hq hz hne
  have h3 := ((cgpmDLaws Z n).wdens c r hreg hf).isLogP t cs ⟨hq.nodup, hq.out, hq.ok⟩ hne
  have h4 : ∀ k ∈ supp, logpdfOf c g r (t ++ [(z, .num (k : ℚ))]) cs =
      .ok (lp (cgpmI n) r c (t ++ [(z, .num (k : ℚ))]) cs) := fun k hk =>
    logpdfOf_eq (by simp) (h1 k hk) g
  refine ⟨⟨_, logpdfOf_eq ht h3 g, h3⟩, fun k hk => ⟨_, h4 k hk, h1 k hk⟩, ?_⟩
  rw [logpdfOf_eq ht h3 g]
  change (lp (cgpmI n) r c t cs).exp = _
  rw [← h2]
  congr 1
  apply List.map_congr_left
  intro k hk
  rw [h4 k hk]
  rfl

/-- Column 3 missing as target and column 1 as constraint meet all hypotheses. -/
example (r : RowId) (g : Rng) : IsMixture (n := 2) (.finMix Concrete.finView : Node (Node Prim)) 5 [0, 1] ∧
    Query 2 (.finMix Concrete.finView : Node (Node Prim)) [(3, .nan)] [(1, .num 2)] ∧
    Positive (n := 2) (.finMix Concrete.finView : Node (Node Prim)) g r [(1, .num 2)] :=
  ⟨Concrete.finView_mixture, Concrete.finView_query', .inr
    (C25_positive Concrete.finView_tidy (Concrete.finView_empty r) (by simp) (by decide)
      (by change ∀ kv ∈ (_ : Dict Var Val), kv.1 ∈ [5, 3, 1]; simp)
      (fun kv hkv => Concrete.finView_plausible (by simp at hkv; simp [Concrete.query0, hkv])) g)⟩

/-! ## C23 the posterior over clusters is normalised -/

/-- Given constraints of positive probability that do not mention the cluster (possibly none),
the posterior probabilities of the clusters sum to one. -/
theorem C23_normalised {c : Cgpm n} (h : Tidy Z n c) {z : Var} {supp : List Int}
    (hm : IsMixture c z supp) {r : RowId} (hr : HoldsNothing (cgpmI n) c r)
    {cs : Dict Var Val} (hq : Query n c [] cs) (hz : z ∉ Dict.keys cs) {g : Rng}
    (hp : Positive c g r cs) :
    (∀ k ∈ supp, ReturnsLogP (logpdfOf c g r [(z, .num (k : ℚ))] cs)) ∧
    (supp.map fun k : Int => prob (logpdfOf c g r [(z, .num (k : ℚ))] cs)).sum = 1 := by
  have hreg := tidy_reg h
  have hf := (holdsNothing_iff (cgpmTLaws Z n) hreg r).1 hr
  obtain ⟨h1, h2⟩ := mix_total hreg hm hf hq hz (positive_lp hp)
  simp only [List.nil_append] at h1 h2
  have h4 : ∀ k ∈ supp, logpdfOf c g r [(z, .num (k : ℚ))] cs =
      .ok (lp (cgpmI n) r c [(z, .num (k : ℚ))] cs) := fun k hk =>
    logpdfOf_eq (by simp) (h1 k hk) g
  refine ⟨fun k hk => ⟨_, h4 k hk, h1 k hk⟩, ?_⟩
  rw [lp_nil, Fl.exp_zero] at h2
  rw [← h2]
  congr 1
  apply List.map_congr_left
  intro k hk
  rw [h4 k hk]
  rfl

/-- Two clusters; the constraint on column 1 changes the posterior and meets all hypotheses. -/
example (r : RowId) (g : Rng) : IsMixture (n := 2) (.finMix Concrete.finView : Node (Node Prim)) 5 [0, 1] ∧
    Query 2 (.finMix Concrete.finView : Node (Node Prim)) [] [(1, .num 2)] ∧
    Positive (n := 2) (.finMix Concrete.finView : Node (Node Prim)) g r [(1, .num 2)] :=
  ⟨Concrete.finView_mixture,
    ⟨by decide, fun kv hkv => Concrete.finView_query'.out kv (by simp at hkv; simp [hkv]),
      fun kv hkv => Concrete.finView_query'.ok kv (by simp at hkv; simp [hkv])⟩, .inr
    (C25_positive Concrete.finView_tidy (Concrete.finView_empty r) (by simp) (by decide)
      (by change ∀ kv ∈ (_ : Dict Var Val), kv.1 ∈ [5, 3, 1]; simp)
      (fun kv hkv => Concrete.finView_plausible (by simp at hkv; simp [Concrete.query0, hkv])) g)⟩

end Props

end Cgpm2
