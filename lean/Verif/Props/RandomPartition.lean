import Verif.Lemmas.RandomPartition

/-!
# Property C59: the random partition generator
-/

namespace Cgpm2.Props
open Spec

/-- C59: for alpha > 0 the generator returns a partition of `0, …, N-1`, whatever is drawn. -/
theorem C59_partition (alpha : ℝ) (ha : 0 < alpha) (N : Nat) (rng : Rng) :
    ∃ p rng', generateRandomPartition alpha N rng = (.ok p, rng') ∧ IsPartition N p := by
  obtain ⟨q, hq, h⟩ := generate_spec ha N rng
  exact ⟨q, _, h, hq⟩

/-- C59: the partition of the first `n` numbers is kept when number `n` is drawn, and the chance
that `n` joins a block is the size of the block over `n + alpha`; the chance that it starts a new
block is `alpha / (n + alpha)`. -/
theorem C59_law (alpha : ℝ) (ha : 0 < alpha) (n : Nat) (rng : Rng) (p : List (List Nat))
    (h : (generateRandomPartition alpha n rng).1 = .ok p) :
    (∀ (i : Nat) (hi : i < p.length),
      chance (fun u => (generateRandomPartition alpha (n + 1) (withUniformAt n u rng)).1 =
        .ok (p.set i (p[i] ++ [n]))) = ENNReal.ofReal (p[i].length / (n + alpha))) ∧
    chance (fun u => (generateRandomPartition alpha (n + 1) (withUniformAt n u rng)).1 =
        .ok (p ++ [[n]])) = ENNReal.ofReal (alpha / (n + alpha)) := by
  have hp : IsPartition n p := by
    obtain ⟨q, hq, h'⟩ := generate_spec ha n rng
    rw [h'] at h
    obtain rfl : q = p := by simpa using h
    exact hq
  obtain ⟨h1, h2, h3, h4⟩ := partitionProbs_spec hp ha
  have key : ∀ i ≤ p.length,
      chance (fun u => (generateRandomPartition alpha (n + 1) (withUniformAt n u rng)).1 =
        .ok (joinBlock p i n)) = ENNReal.ofReal ((partitionProbs alpha p).getD i 0) := by
    intro i hi
    have hlen : i < (partitionProbs alpha p).length := by omega
    rw [← chance_invCdf _ h2 h3 i hlen]
    apply chance_congr
    intro u hu
    have hpre : (generateRandomPartition alpha n (withUniformAt n u rng)).1 = .ok p := by
      rw [← h]
      exact generate_congr alpha n _ _ fun k hk => if_neg (by omega)
    rw [generate_succ ha n _ hpre]
    have hf : Int.fract (withUniformAt n u rng n).u = u := by
      simp only [withUniformAt, if_true]
      exact Int.fract_eq_self.2 hu
    rw [hf]
    have hlt : invCdf (partitionProbs alpha p) u < (partitionProbs alpha p).length :=
      invCdf_lt _ _ (by rw [h3]; exact hu.2) hu.1
    constructor
    · intro h
      exact joinBlock_inj (by omega) hi (Except.ok.inj h)
    · rintro rfl
      rfl
  have hs := partitionWeights_sum hp alpha
  constructor
  · intro i hi
    have := key i hi.le
    rw [joinBlock, dif_pos hi] at this
    rw [this]
    congr 1
    rw [partitionProbs, hs, partitionWeights]
    rw [List.getD_eq_getElem?_getD, List.map_append, List.getElem?_append_left (by simpa using hi)]
    simp [hi]
  · have := key p.length le_rfl
    rw [joinBlock, dif_neg (by omega)] at this
    rw [this]
    congr 1
    rw [partitionProbs, hs, partitionWeights]
    simp [List.getD_eq_getElem?_getD]

/-- Three numbers: a partition of `0, 1, 2` comes out. -/
example : ∃ p, (generateRandomPartition 1 3 (fun _ => ⟨0, 0⟩)).1 = .ok p ∧ p.flatten.length = 3 := by
  obtain ⟨p, r, h, hp⟩ := C59_partition 1 one_pos 3 (fun _ => ⟨0, 0⟩)
  exact ⟨p, by rw [h], by rw [hp.covers.length_eq]; rfl⟩

end Cgpm2.Props
