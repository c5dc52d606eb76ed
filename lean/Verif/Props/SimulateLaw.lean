import Verif.Lemmas.SimulateLawMix
import Verif.Props.Asked
import Verif.Props.Samples

/-!
# Property C106: `simulate` draws from the distribution that `logpdf` reports
-/

namespace Cgpm2
open Spec MeasureTheory

variable {Z : List Var} {n : Nat} {μ : Measure Draw} [IsProbabilityMeasure μ]

/-- What is asked of a call of `simulate` and of the values hoped for. -/
structure Spec.LawQuery (n : Nat) (c : Cgpm n) (g : Rng) (r : RowId) (t : List Var) (cs : Dict Var Val)
    (a : Var → Int) : Prop where
  free : HoldsNothing (cgpmI n) c r
  query : SimQuery n c t cs
  positive : Positive c g r cs
  discrete : ∀ v ∈ t, DiscreteAt n c v
  askable : ∀ v ∈ t, Askable n c v (.num (a v : ℚ))

theorem Spec.LawQuery.law (hμ : IsDraw μ) {c : Cgpm n} (hreg : (cgpmTab Z n).Reg c) {g : Rng} {r : RowId}
    {t : List Var} {cs : Dict Var Val} {a : Var → Int} (h : LawQuery n c g r t cs a) {N : Option Nat}
    (hN : N = none ∨ N = some 1) :
    HasChance μ (runs ((cgpmI n).simulate r t cs [] N) c) t a
      (ENNReal.ofReal (prob (logpdfOf c g r (valued t a) cs))) := by
  have hf := (holdsNothing_iff (cgpmTLaws Z n) hreg r).1 h.free
  have hp := positive_lp h.positive
  have hlaw := cgpm_law hμ Z n c r t cs N a hreg hf h.query.simAsk hp hN h.discrete h.askable
  have hq := h.query.simAsk.valued h.askable
  have hl := ((cgpmDLaws Z n).wdens c r hreg hf).isLogP _ _ hq hp
  have hne : valued t a ≠ [] := by
    intro h0
    exact h.query.ne (List.map_eq_nil_iff.1 h0)
  rw [logpdfOf_eq hne hl g]
  exact hlaw

/-- The answer of the second call follows the first in the same way. -/
theorem Spec.LawQuery.twice (hμ : IsDraw μ) {c : Cgpm n} (hreg : (cgpmTab Z n).Reg c) {g : Rng}
    {r r' : RowId} {t t' : List Var} {cs cs' : Dict Var Val} {a a' : Var → Int}
    (h : LawQuery n c g r t cs a) (h' : LawQuery n c g r' t' cs' a') {N N' : Option Nat}
    (hN : N = none ∨ N = some 1) (hN' : N' = none ∨ N' = some 1) :
    probability μ (fun g => Hits t a ((cgpmI n).simulate r t cs [] N (c, g)).1 ∧
      Hits t' a' ((cgpmI n).simulate r' t' cs' [] N' ((cgpmI n).simulate r t cs [] N (c, g)).2).1) =
      ENNReal.ofReal (prob (logpdfOf c g r (valued t a) cs)) *
        ENNReal.ofReal (prob (logpdfOf c g r' (valued t' a') cs')) := by
  obtain ⟨m2, e2⟩ := h'.law hμ hreg hN' Set.univ .univ
  simp only [Set.mem_univ, and_true, measure_univ, mul_one] at m2 e2
  obtain ⟨-, e1⟩ := h.law hμ hreg hN _ m2
  rw [e2] at e1
  refine Eq.trans ?_ e1
  unfold probability Pr
  congr 1
  ext g
  refine and_congr_right fun _ => ?_
  have L := cgpmLaws n
  have hE := L.simulate_keeps r t cs [] N c g (L.refl c ((cgpmTLaws Z n).inv c hreg))
  have := (L.simulate r' t' cs' [] N' c _ ((cgpmI n).simulate r t cs [] N (c, g)).2.2 hE).1
  unfold runs
  rw [Set.mem_ofPred_eq]
  dsimp only
  rw [this]

namespace Life
open Views Ensemble

theorem discrete_cell {Z : List Var} {x : Crosscat} (h : CC Z x) {a : Var}
    (hd : ∀ p, OfColumn x a p → Discrete p) : DiscreteAt 3 (whole x) a := by
  intro v hv
  obtain ⟨m, p, hf⟩ := flat_of_reg (h.viewReg hv) (h.views v hv)
  rw [hf.eq]
  intro c hc
  obtain ⟨p', rfl, hp⟩ := comp_flat h hv hf hc
  exact fun q hq hin => hd q (hp q hq a hin).1

theorem chain_query {outputs : List Var} {types : List Dist} {T : Ledger} (hl : outputs.length = types.length)
    {c : Cgpm 3 × Rng} (h : Chain outputs types T c) {r : RowId} (hr : ¬ T.rows r) {t : List Var} (hne : t ≠ [])
    {k : Dict Var Val} (hn : (t ++ Dict.keys k).Nodup) (ht : ∀ v ∈ t, v ∈ outputs)
    (hd : ∀ v ∈ t, ∀ d, (v, d) ∈ outputs.zip types → d.name = "categorical" ∨ d.name = "bernoulli")
    (hs : ∀ vy ∈ k, Sensible outputs types vy.1 vy.2) (a : Var → Int) :
    (∃ Z, (cgpmTab Z 3).Reg c.1) ∧ LawQuery 3 c.1 c.2 r t k a := by
  have hp : Positive c.1 c.2 r k := by
    rcases k with _ | ⟨vy, k⟩
    · exact .inl rfl
    · exact .inr (chain_positive hl h hr (t := vy :: k) (cs := []) (by simp)
        (by simpa [Dict.keys] using (List.nodup_append.1 hn).2.1) (by simpa using hs))
  obtain ⟨x, Z, e, hcc, hc, hde, hout, hf⟩ := chain_parts h
  obtain ⟨c, g⟩ := c
  dsimp only at e
  subst e
  refine ⟨⟨Z, hcc.reg⟩, (holdsNothing_iff (cgpmTLaws Z 3) hcc.reg r).2 (hf r hr), ⟨hne, hn, ?_, fun vy hvy =>
    askable_cell hcc ((hc _).2 (hs vy hvy).1) vy.2⟩, hp, fun v hv => ?_, fun v hv => askable_cell hcc ((hc v).2 (ht v hv)) _⟩
  · intro v hv
    rcases List.mem_append.1 hv with hv | hv
    · exact hout v (ht v hv)
    · obtain ⟨vy, h1, rfl⟩ := List.mem_map.1 hv
      exact hout _ (hs vy h1).1
  · refine discrete_cell hcc fun p hp => ?_
    obtain ⟨d, hvd, ht'⟩ := exists_type' hc hl hde ((hc v).2 (ht v hv)) hp
    have := hd v hv d hvd
    cases p <;> simp_all [OfType, Discrete, Prim.kind]

end Life

namespace Props
open Ensemble

/-- **C106** for discrete columns.  The probability that the row that `simulate` returns gives the
targets the values `a` is `exp` of what `logpdf` returns for these values.  The probability is over
the whole stream of draws, whose uniform variates are independent. -/
theorem C106_law_partial (hμ : IsDraw μ) {c : Cgpm n} (h : Tidy Z n c) {g : Rng} {r : RowId}
    {t : List Var} {cs : Dict Var Val} {a : Var → Int} (hq : LawQuery n c g r t cs a) {N : Option Nat}
    (hN : N = none ∨ N = some 1) :
    probability μ (fun g => Hits t a ((cgpmI n).simulate r t cs [] N (c, g)).1) =
      ENNReal.ofReal (prob (logpdfOf c g r (valued t a) cs)) := by
  have := (hq.law hμ (tidy_reg h) hN Set.univ .univ).2
  simp only [Set.mem_univ, and_true, measure_univ, mul_one] at this
  exact this

/-- Two calls of `simulate`, one after the other, are independent. -/
theorem C106_independent_partial (hμ : IsDraw μ) {c : Cgpm n} (h : Tidy Z n c) {g : Rng}
    {r r' : RowId} {t t' : List Var} {cs cs' : Dict Var Val} {a a' : Var → Int}
    (hq : LawQuery n c g r t cs a) (hq' : LawQuery n c g r' t' cs' a') {N N' : Option Nat}
    (hN : N = none ∨ N = some 1) (hN' : N' = none ∨ N' = some 1) :
    probability μ (fun g => Hits t a ((cgpmI n).simulate r t cs [] N (c, g)).1 ∧
      Hits t' a' ((cgpmI n).simulate r' t' cs' [] N' ((cgpmI n).simulate r t cs [] N (c, g)).2).1) =
    probability μ (fun g => Hits t a ((cgpmI n).simulate r t cs [] N (c, g)).1) *
      probability μ (fun g => Hits t' a' ((cgpmI n).simulate r' t' cs' [] N' (c, g)).1) := by
  rw [hq.twice hμ (tidy_reg h) hq' hN hN', C106_law_partial hμ h hq hN, C106_law_partial hμ h hq' hN']

/-- C106 after any calls: what a chain of an ensemble simulates for categorical and Bernoulli columns, of a
row that is not there, given any values of other columns, follows the chain's `logpdf`. -/
theorem C106_chain_partial (hμ : IsDraw μ) (env : Outside) (hs : SaneOutside env) (outputs : List Var) (types : List Dist)
    (ht : ∀ d ∈ types, ValidType d) (hne : outputs ≠ []) (chains : Nat)
    (Cd Ci : List (List Var)) (g g' : Rng) (cs cs' : List (Cgpm 3 × Rng))
    (h : Ensemble.init env outputs [] types chains Cd Ci g = (.ok cs, g')) (calls : List Request)
    (hk : ∀ k ∈ calls, k.Proper outputs) (hc : Life calls cs cs')
    (r : RowId) (hr : ¬ (ledger calls).rows r) (t : List Var) (hne' : t ≠ []) (k : Dict Var Val)
    (hn : (t ++ Dict.keys k).Nodup) (ho : ∀ v ∈ t, v ∈ outputs)
    (hd : ∀ v ∈ t, ∀ d, (v, d) ∈ outputs.zip types → d.name = "categorical" ∨ d.name = "bernoulli")
    (hk' : ∀ vy ∈ k, Sensible outputs types vy.1 vy.2) (N : Option Nat) (hN : N = none ∨ N = some 1)
    (a : Var → Int) (c : Cgpm 3 × Rng) (hmem : c ∈ cs') :
    probability μ (fun g => Hits t a ((cgpmI 3).simulate r t k [] N (c.1, g)).1) =
      ENNReal.ofReal (prob ((cgpmI 3).logpdf r (valued t a) k [] c).1) := by
  obtain ⟨hl, h2, h3⟩ := Life.life_chains hs ht hne h hk hc
  obtain ⟨⟨Z, hreg⟩, hq⟩ := Life.chain_query hl (h3 c hmem) hr hne' hn ho hd hk' a
  have := (hq.law hμ hreg hN Set.univ .univ).2
  simp only [Set.mem_univ, and_true, measure_univ, mul_one] at this
  exact this

/-- An ensemble of a real and a categorical column, after one observation, is asked for the categorical
column given the real one. -/
example : ∃ cs g' cs', Ensemble.init Concrete.outside [1, 2] [] [⟨"normal", none⟩, ⟨"categorical", some 3⟩] 2 [] []
      Concrete.gseq = (.ok cs, g') ∧
    Life [.observe (some 0) [(1, .num 3), (2, .num 1)] none false] cs cs' ∧
    ¬ (ledger [.observe (some 0) [(1, .num 3), (2, .num 1)] none false]).rows (some 1) ∧
    Sensible [1, 2] [⟨"normal", none⟩, ⟨"categorical", some 3⟩] 1 (.num 5) ∧
    ∀ v ∈ [2], ∀ d, (v, d) ∈ [1, 2].zip [(⟨"normal", none⟩ : Dist), ⟨"categorical", some 3⟩] →
      d.name = "categorical" ∨ d.name = "bernoulli" := by
  obtain ⟨cs, g', cs', h1, -, h2, h3, -, h4, -⟩ := asked_example
  refine ⟨cs, g', cs', h1, h2, h3, h4, fun v hv d hd => ?_⟩
  rw [List.mem_singleton.1 hv] at hd
  simp at hd
  simp [hd]

/-- There are laws of one draw: the uniform variate from `[0, 1)`, the other number anything. -/
theorem C106_draws_exist : ∃ μ : Measure Draw, IsDraw μ := by
  have hm : Measurable fun u : ℝ => (⟨u, 0⟩ : Draw) := by
    rw [measurable_iff_comap_le, instMeasurableSpaceDraw, MeasurableSpace.comap_comp,
      ← measurable_iff_comap_le]
    exact measurable_id.prodMk measurable_const
  refine ⟨(volume.restrict (Set.Ico (0 : ℝ) 1)).map fun u : ℝ => (⟨u, 0⟩ : Draw), ?_, ?_⟩
  · have : IsProbabilityMeasure (volume.restrict (Set.Ico (0 : ℝ) 1)) := ⟨by simp⟩
    exact Measure.isProbabilityMeasure_map hm.aemeasurable
  · rw [Measure.map_map measurable_u hm]
    exact Measure.map_id

/-- A coin-divided mixture of a real and a categorical column, asked for its cluster and the
categorical column given the real one. -/
example (r : RowId) (g : Rng) : Tidy [5] 2 (.finMix Concrete.finView : Node (Node Prim)) ∧
    LawQuery 2 (.finMix Concrete.finView : Node (Node Prim)) g r [5, 1] [(3, .num (1/2))]
      (fun v => if v = 5 then 1 else 2) := by
  refine ⟨Concrete.finView_tidy, Concrete.finView_empty r,
    ⟨by simp, by simp [Dict.keys], by change ∀ v ∈ _, v ∈ [5, 3, 1]; simp [Dict.keys],
      fun kv hkv => Concrete.finView_askable (by simp at hkv; rw [hkv]; simp)⟩,
    .inr (C25_positive Concrete.finView_tidy (Concrete.finView_empty r) (by simp) (by simp [Dict.keys])
      (by change ∀ kv ∈ (_ : Dict Var Val), kv.1 ∈ [5, 3, 1]; simp)
      (fun kv hkv => Concrete.finView_plausible (by simp at hkv; simp [Concrete.query0, hkv])) g), ?_, ?_⟩
  · intro v hv
    refine Concrete.finView_all (P := fun c => DiscreteAt 1 c v) ?_
    refine Concrete.block2_all (P := fun c => v ∈ Prim.outputs c → Discrete c) (fun h => ?_)
      fun _ => .inr (.inl rfl)
    have h : v ∈ [3] := h
    simp only [List.mem_singleton] at h
    subst h
    simp at hv
  · intro v hv
    exact Concrete.finView_askable (kv := (v, _)) (by rintro rfl; simp)

end Props
end Cgpm2
