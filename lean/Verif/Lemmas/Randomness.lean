import Mathlib.MeasureTheory.Function.Floor
import Verif.Lemmas.Flip
import Verif.Spec.Randomness

/-!
# Probabilities over the whole stream of draws (helpers)
-/

namespace Cgpm2
open Spec MeasureTheory

/-- The law of the stream. -/
noncomputable abbrev Pr (μ : Measure Draw) [IsProbabilityMeasure μ] : Measure Rng :=
  Measure.infinitePi fun _ : Nat => μ

theorem measurable_u : Measurable Draw.u :=
  measurable_fst.comp (comap_measurable fun d : Draw => (d.u, d.x))

/-- Put one entry in front of a stream. -/
def consRng (p : Draw × Rng) : Rng := fun n => Nat.casesOn n p.1 fun n => p.2 n

theorem measurable_consRng : Measurable consRng := by
  refine measurable_pi_iff.2 fun n => ?_
  cases n with
  | zero => exact measurable_fst
  | succ n => exact (measurable_pi_apply n).comp measurable_snd

variable {μ : Measure Draw} [IsProbabilityMeasure μ]

/-- The first entry is independent of the others, which have the law of the stream. -/
theorem map_consRng : (μ.prod (Pr μ)).map consRng = Pr μ := by
  classical
  refine Measure.eq_infinitePi _ fun s t ht => ?_
  obtain ⟨N, hN⟩ : ∃ N, s ⊆ Finset.range (N + 1) :=
    ⟨s.sup id, fun i hi => Finset.mem_range.2 (Nat.lt_succ_of_le (Finset.le_sup (f := id) hi))⟩
  let t' : Nat → Set Draw := fun i => if i ∈ s then t i else Set.univ
  have ht' : ∀ i, MeasurableSet (t' i) := by
    intro i
    simp only [t']
    split
    · exact ht i
    · exact .univ
  have hpi : Set.pi (s : Set Nat) t = Set.pi (Finset.range (N + 1) : Set Nat) t' := by
    ext g
    simp only [Set.mem_pi, Finset.mem_coe, t']
    constructor
    · intro h i _
      split
      · next hi => exact h i hi
      · trivial
    · intro h i hi
      have := h i (hN hi)
      rwa [if_pos hi] at this
  have hprod : ∏ i ∈ s, μ (t i) = ∏ i ∈ Finset.range (N + 1), μ (t' i) := by
    rw [← Finset.prod_subset hN]
    · refine Finset.prod_congr rfl fun i hi => ?_
      simp only [t', if_pos hi]
    · intro i _ hi
      simp only [t', if_neg hi, measure_univ]
  rw [hpi, hprod, Measure.map_apply measurable_consRng (.pi (Finset.countable_toSet _) fun i _ => ht' i)]
  have hpre : consRng ⁻¹' Set.pi (Finset.range (N + 1) : Set Nat) t' =
      t' 0 ×ˢ Set.pi (Finset.range N : Set Nat) fun i => t' (i + 1) := by
    ext ⟨d, g⟩
    simp only [Set.mem_preimage, Set.mem_pi, Finset.coe_range, Set.mem_Iio, Set.mem_prod]
    constructor
    · intro h
      exact ⟨h 0 (by omega), fun i hi => h (i + 1) (by omega)⟩
    · rintro ⟨h0, h⟩ i hi
      cases i with
      | zero => exact h0
      | succ i => exact h i (by omega)
  rw [hpre, Measure.prod_prod, Measure.infinitePi_pi _ fun i _ => ht' _, Finset.prod_range_succ', mul_comm]

theorem measurable_next : Measurable fun g : Rng => (fun n => g (n + 1) : Rng) :=
  measurable_pi_iff.2 fun n => measurable_pi_apply (n + 1)

theorem Pr_step {E : Set Draw} (hE : MeasurableSet E) {B : Set Rng} (hB : MeasurableSet B) :
    MeasurableSet {g : Rng | g 0 ∈ E ∧ (fun n => g (n + 1) : Rng) ∈ B} ∧
    Pr μ {g : Rng | g 0 ∈ E ∧ (fun n => g (n + 1) : Rng) ∈ B} = μ E * Pr μ B := by
  have hm : MeasurableSet {g : Rng | g 0 ∈ E ∧ (fun n => g (n + 1) : Rng) ∈ B} :=
    (measurable_pi_apply 0 hE).inter (measurable_next hB)
  refine ⟨hm, ?_⟩
  conv_lhs => rw [← map_consRng (μ := μ)]
  rw [Measure.map_apply measurable_consRng hm, ← Measure.prod_prod]
  rfl

/-- The law of a choice, and of the stream after it. -/
theorem pflipIdx_law (hμ : IsDraw μ) (ps : List ℝ) (hp : ∀ p ∈ ps, 0 ≤ p) (hs : 0 < ps.sum) (i : Nat)
    (hi : i < ps.length) {B : Set Rng} (hB : MeasurableSet B) :
    MeasurableSet {g : Rng | (pflipIdx ps g).1 = .ok i ∧ (pflipIdx ps g).2 ∈ B} ∧
    Pr μ {g : Rng | (pflipIdx ps g).1 = .ok i ∧ (pflipIdx ps g).2 ∈ B} =
      ENNReal.ofReal (ps.getD i 0 / ps.sum) * Pr μ B := by
  match ps with
  | [] => simp at hi
  | [p] =>
    have : i = 0 := by simpa using hi
    subst this
    have hp : p ≠ 0 := by have : 0 < p := by simpa using hs
                          exact this.ne'
    have : {g : Rng | (pflipIdx [p] g).1 = .ok 0 ∧ (pflipIdx [p] g).2 ∈ B} = B := by
      ext g
      simp [pflipIdx]
    rw [this]
    refine ⟨hB, ?_⟩
    simp [hp]
  | p :: q :: ps =>
    set l := p :: q :: ps with hl
    let F : Set ℝ := {u | invCdf l (Int.fract u * l.sum) = i}
    have hF : MeasurableSet F := by
      have : F = {u | (l.take i).sum ≤ Int.fract u * l.sum} ∩
          {u | Int.fract u * l.sum < (l.take (i + 1)).sum} := by
        ext u
        exact invCdf_eq_iff l hp _ (fract_mul_lt hs).1 i hi
      rw [this]
      exact (measurableSet_le measurable_const (measurable_fract.mul_const _)).inter
        (measurableSet_lt (measurable_fract.mul_const _) measurable_const)
    have hE : MeasurableSet (Draw.u ⁻¹' F) := measurable_u hF
    have hset : {g : Rng | (pflipIdx l g).1 = .ok i ∧ (pflipIdx l g).2 ∈ B} =
        {g : Rng | g 0 ∈ Draw.u ⁻¹' F ∧ (fun n => g (n + 1) : Rng) ∈ B} := by
      ext g
      have : pflipIdx l g = (.ok (invCdf l (Int.fract (g 0).u * l.sum)), fun n => g (n + 1)) := by
        rw [hl]
        simp only [pflipIdx]
        rw [← hl, if_pos ⟨hp, hs⟩]
        rfl
      rw [Set.mem_ofPred_eq, this]
      simp [F]
    rw [hset]
    obtain ⟨h1, h2⟩ := Pr_step (μ := μ) hE hB
    refine ⟨h1, ?_⟩
    rw [h2, ← Measure.map_apply measurable_u hF, hμ.2, Measure.restrict_apply hF,
      ← chance_pflipIdx l hp hs (fun _ => ⟨0, 0⟩) i hi]
    congr 1
    unfold chance
    congr 1
    ext u
    have : ∀ u, (pflipIdx l (withUniform u fun _ => ⟨0, 0⟩)).1 = .ok (invCdf l (Int.fract u * l.sum)) := by
      intro u
      rw [hl]
      simp only [pflipIdx]
      rw [← hl, if_pos ⟨hp, hs⟩]
      rfl
    simp only [Set.mem_inter_iff, Set.mem_ofPred_eq, this, Except.ok.injEq, F]
    exact and_comm

end Cgpm2
