import Verif.Model.RandomPartition
import Verif.Spec.RandomPartition
import Verif.Lemmas.Flip

/-!
# Random partitions (helpers)
-/

namespace Cgpm2
open Spec MeasureTheory

theorem seatCustomer_eq {p : List (List Nat)} {i n : Nat} (h : i ≤ p.length) :
    seatCustomer p i n = joinBlock p i n := by
  unfold seatCustomer joinBlock
  rcases Nat.lt_or_ge i p.length with h' | h'
  · simp only [Nat.not_le.2 h', if_false, h', dif_pos]
    rw [List.modify_eq_set_getElem?]
    simp [h']
  · obtain rfl : i = p.length := by omega
    simp only [le_refl, if_true, lt_self_iff_false, dite_false]
    rw [List.modify_eq_set_getElem?]
    simp

theorem Spec.IsPartition.join {n : Nat} {p : List (List Nat)} (hp : IsPartition n p) (i : Nat) :
    IsPartition (n + 1) (joinBlock p i n) := by
  have hmem : ∀ b ∈ p, ∀ x ∈ b, x < n := fun b hb x hx => by
    have := hp.covers.mem_iff.1 (List.mem_flatten.2 ⟨b, hb, hx⟩)
    simpa using this
  unfold joinBlock
  split
  · rename_i h
    have hset : ∀ c ∈ p.set i (p[i] ++ [n]), c ∈ p ∨ c = p[i] ++ [n] := fun c hc =>
      List.mem_or_eq_of_mem_set hc
    refine ⟨fun b hb => ?_, fun b hb => ?_, ?_, ?_⟩
    · rcases hset b hb with h' | rfl
      · exact hp.nonempty b h'
      · simp
    · rcases hset b hb with h' | rfl
      · exact hp.increasing b h'
      · rw [List.pairwise_append]
        refine ⟨hp.increasing _ (List.getElem_mem h), by simp, fun x hx y hy => ?_⟩
        obtain rfl := List.mem_singleton.1 hy
        exact hmem _ (List.getElem_mem h) x hx
    · rw [List.range_succ]
      refine List.Perm.trans ?_ (hp.covers.append_right [n])
      conv_rhs => rw [← List.take_append_drop i p, ← List.getElem_cons_drop h]
      rw [List.set_eq_take_append_cons_drop, if_pos h]
      simp only [List.flatten_append, List.flatten_cons, List.append_assoc]
      refine List.Perm.append_left _ (List.Perm.append_left _ ?_)
      exact List.perm_append_comm
    · rw [List.pairwise_iff_getElem]
      intro a b ha hb hab x hx
      have ha' : a < p.length := by simpa using ha
      have hb' : b < p.length := by simpa using hb
      have hold := List.pairwise_iff_getElem.1 hp.ordered a b ha' hb' hab
      have hne := hp.nonempty _ (List.getElem_mem ha')
      have hsub : ∀ y ∈ p[a], y ∈ (p.set i (p[i] ++ [n]))[a] := fun y hy => by
        rw [List.getElem_set]
        split
        · subst_vars; simp [hy]
        · exact hy
      rw [List.getElem_set] at hx
      have hx' : x ∈ p[b] ∨ x = n := by
        split at hx
        · subst_vars
          simpa using hx
        · exact .inl hx
      rcases hx' with hx' | rfl
      · obtain ⟨y, hy, hlt⟩ := hold x hx'
        exact ⟨y, hsub y hy, hlt⟩
      · obtain ⟨y, hy⟩ := List.exists_mem_of_ne_nil _ hne
        exact ⟨y, hsub y hy, hmem _ (List.getElem_mem ha') y hy⟩
  · refine ⟨fun b hb => ?_, fun b hb => ?_, ?_, ?_⟩
    · rcases List.mem_append.1 hb with h' | h'
      · exact hp.nonempty b h'
      · rw [List.mem_singleton.1 h']; simp
    · rcases List.mem_append.1 hb with h' | h'
      · exact hp.increasing b h'
      · rw [List.mem_singleton.1 h']; simp
    · rw [List.range_succ, List.flatten_append]
      simpa using hp.covers.append_right [n]
    · rw [List.pairwise_append]
      refine ⟨hp.ordered, by simp, fun b hb c hc x hx => ?_⟩
      obtain rfl := List.mem_singleton.1 hc
      obtain rfl := List.mem_singleton.1 hx
      obtain ⟨y, hy⟩ := List.exists_mem_of_ne_nil _ (hp.nonempty b hb)
      exact ⟨y, hy, hmem b hb y hy⟩

theorem Spec.IsPartition.sum_length {n : Nat} {p : List (List Nat)} (hp : IsPartition n p) :
    (p.map List.length).sum = n := by
  have := hp.covers.length_eq
  rw [List.length_flatten, List.length_range] at this
  exact this

theorem partitionWeights_sum {n : Nat} {p : List (List Nat)} (hp : IsPartition n p) (alpha : ℝ) :
    (partitionWeights alpha p).sum = n + alpha := by
  have : (p.map fun b => (b.length : ℝ)).sum = ((p.map List.length).sum : Nat) := by
    rw [Nat.cast_list_sum, List.map_map]
    rfl
  rw [partitionWeights, List.sum_append, this, hp.sum_length]
  simp

/-- The normalised weights of one step. -/
noncomputable def partitionProbs (alpha : ℝ) (p : List (List Nat)) : List ℝ :=
  (partitionWeights alpha p).map fun w => w / (partitionWeights alpha p).sum

theorem partitionProbs_spec {n : Nat} {p : List (List Nat)} (hp : IsPartition n p) {alpha : ℝ}
    (ha : 0 < alpha) : partitionProbs alpha p ≠ [] ∧ (∀ x ∈ partitionProbs alpha p, 0 ≤ x) ∧
      (partitionProbs alpha p).sum = 1 ∧ (partitionProbs alpha p).length = p.length + 1 := by
  have hs := partitionWeights_sum hp alpha
  have hpos : 0 < (n : ℝ) + alpha := by positivity
  refine ⟨by simp [partitionProbs, partitionWeights], fun x hx => ?_, ?_, by
    simp [partitionProbs, partitionWeights]⟩
  · obtain ⟨w, hw, rfl⟩ := List.mem_map.1 hx
    rw [hs]
    have : 0 ≤ w := by
      rcases List.mem_append.1 hw with h | h
      · obtain ⟨b, -, rfl⟩ := List.mem_map.1 h
        positivity
      · rw [List.mem_singleton.1 h]; exact ha.le
    positivity
  · have : partitionProbs alpha p = (partitionWeights alpha p).map fun w => w * (n + alpha)⁻¹ := by
      rw [partitionProbs, hs]
      rfl
    rw [this, List.sum_map_mul_right, List.map_id', hs]
    exact mul_inv_cancel₀ hpos.ne'

/-- One step. -/
theorem rngChoice_probs {n : Nat} {p : List (List Nat)} (hp : IsPartition n p) {alpha : ℝ}
    (ha : 0 < alpha) (rng : Rng) : ∃ i ≤ p.length,
      invCdf (partitionProbs alpha p) (Int.fract (rng 0).u) = i ∧
      rngChoice (partitionProbs alpha p) rng = (.ok i, rng.next.2) := by
  obtain ⟨h1, h2, h3, h4⟩ := partitionProbs_spec hp ha
  refine ⟨_, ?_, rfl, ?_⟩
  · have := invCdf_lt (partitionProbs alpha p) (Int.fract (rng 0).u)
      (by rw [h3]; exact Int.fract_lt_one _) (Int.fract_nonneg _)
    omega
  · unfold rngChoice
    rw [if_pos ⟨h1, h2, h3⟩]
    rfl

/-- The loop over customers `n, …, n+m-1`. -/
theorem partitionLoop_spec {alpha : ℝ} (ha : 0 < alpha) (m n : Nat) (p : List (List Nat))
    (hp : IsPartition n p) (rng : Rng) :
    ∃ q, IsPartition (n + m) q ∧
      partitionLoop alpha (List.range' n m) p rng = (.ok q, fun k => rng (k + m)) := by
  induction m generalizing n p rng with
  | zero => exact ⟨p, hp, rfl⟩
  | succ m ih =>
    obtain ⟨i, hi, -, h⟩ := rngChoice_probs hp ha rng
    obtain ⟨q, hq, h'⟩ := ih (n + 1) _ (hp.join i) rng.next.2
    refine ⟨q, by rw [show n + (m + 1) = n + 1 + m by ring]; exact hq, ?_⟩
    rw [List.range'_succ, partitionLoop, Py.bind_apply]
    rw [partitionProbs] at h
    rw [h]
    dsimp only
    rw [seatCustomer_eq hi, h']
    rfl

theorem isPartition_nil : IsPartition 0 [] := ⟨by simp, by simp, by simp, by simp⟩

theorem generate_spec {alpha : ℝ} (ha : 0 < alpha) (n : Nat) (rng : Rng) :
    ∃ q, IsPartition n q ∧
      generateRandomPartition alpha n rng = (.ok q, fun k => rng (k + n)) := by
  have := partitionLoop_spec ha n 0 [] isPartition_nil rng
  rw [Nat.zero_add] at this
  rw [generateRandomPartition, List.range_eq_range']
  exact this

theorem partitionLoop_append (alpha : ℝ) (a b : List Nat) (p : List (List Nat)) (rng : Rng) :
    partitionLoop alpha (a ++ b) p rng = match partitionLoop alpha a p rng with
      | (.ok q, rng') => partitionLoop alpha b q rng'
      | (.error e, rng') => (.error e, rng') := by
  induction a generalizing p rng with
  | nil => rfl
  | cons c a ih =>
    rw [List.cons_append, partitionLoop, partitionLoop, Py.bind_apply, Py.bind_apply]
    rcases rngChoice ((partitionWeights alpha p).map fun w => w / (partitionWeights alpha p).sum) rng
      with ⟨_ | i, rng'⟩
    · rfl
    · exact ih _ _

/-- The next customer. -/
theorem generate_succ {alpha : ℝ} (ha : 0 < alpha) (n : Nat) (rng : Rng) {p : List (List Nat)}
    (h : (generateRandomPartition alpha n rng).1 = .ok p) :
    (generateRandomPartition alpha (n + 1) rng).1 =
      .ok (joinBlock p (invCdf (partitionProbs alpha p) (Int.fract (rng n).u)) n) := by
  obtain ⟨q, hq, h'⟩ := generate_spec ha n rng
  rw [h'] at h
  obtain rfl : q = p := by simpa using h
  unfold generateRandomPartition at h' ⊢
  rw [List.range_succ, partitionLoop_append, h']
  dsimp only
  obtain ⟨i, hi, h2, h3⟩ := rngChoice_probs hq ha fun k => rng (k + n)
  rw [partitionLoop, Py.bind_apply]
  rw [partitionProbs] at h3
  rw [h3]
  dsimp only
  rw [seatCustomer_eq hi, ← h2]
  simp only [Nat.zero_add]
  rfl

/-- The partition of the first `n` depends on the first `n` draws. -/
theorem partitionLoop_congr (alpha : ℝ) (l : List Nat) (p : List (List Nat)) (r r' : Rng)
    (h : ∀ k < l.length, r k = r' k) :
    (partitionLoop alpha l p r).1 = (partitionLoop alpha l p r').1 := by
  induction l generalizing p r r' with
  | nil => rfl
  | cons c l ih =>
    rw [partitionLoop, Py.bind_apply, Py.bind_apply]
    have h0 : r 0 = r' 0 := h 0 (by simp)
    unfold rngChoice
    split_ifs with hc
    · simp only [Rng.uniform, h0]
      exact ih _ _ _ fun k hk => h (k + 1) (by simpa using hk)
    · rfl

theorem generate_congr (alpha : ℝ) (n : Nat) (r r' : Rng) (h : ∀ k < n, r k = r' k) :
    (generateRandomPartition alpha n r).1 = (generateRandomPartition alpha n r').1 :=
  partitionLoop_congr alpha _ _ r r' (by simpa using h)

theorem chance_invCdf (l : List ℝ) (hp : ∀ x ∈ l, 0 ≤ x) (hs : l.sum = 1) (i : Nat)
    (hi : i < l.length) : chance (fun u => invCdf l u = i) = ENNReal.ofReal (l.getD i 0) := by
  rw [show chance (fun u => invCdf l u = i) =
      chance (fun u => (l.take i).sum ≤ u ∧ u < (l.take (i + 1)).sum) from
    chance_congr fun u hu => invCdf_eq_iff l hp u hu.1 i hi]
  unfold chance
  have h0 : 0 ≤ (l.take i).sum := List.sum_nonneg fun x hx => hp x (List.mem_of_mem_take hx)
  have hle : (l.take (i + 1)).sum ≤ 1 := by
    have := List.sum_take_add_sum_drop l (i + 1)
    have h2 : 0 ≤ (l.drop (i + 1)).sum :=
      List.sum_nonneg fun x hx => hp x (List.mem_of_mem_drop hx)
    linarith
  have hset : {u : ℝ | u ∈ Set.Ico 0 1 ∧ ((l.take i).sum ≤ u ∧ u < (l.take (i + 1)).sum)}
      = Set.Ico (l.take i).sum (l.take (i + 1)).sum := by
    ext u
    simp only [Set.mem_ofPred_eq, Set.mem_Ico]
    constructor
    · rintro ⟨_, h⟩; exact h
    · rintro ⟨a, b⟩; exact ⟨⟨by linarith, by linarith⟩, a, b⟩
  rw [hset, Real.volume_Ico, List.sum_take_succ _ _ hi,
    List.getD_eq_getElem?_getD, List.getElem?_eq_getElem hi]
  simp

/-- The block a number joins can be read off. -/
theorem joinBlock_inj {n : Nat} {p : List (List Nat)} {i j : Nat}
    (hi : i ≤ p.length) (hj : j ≤ p.length) (h : joinBlock p i n = joinBlock p j n) : i = j := by
  have hlen : ∀ k, (joinBlock p k n).length = if k < p.length then p.length else p.length + 1 := by
    intro k
    unfold joinBlock
    split <;> simp [*]
  have hl : (joinBlock p i n).length = (joinBlock p j n).length := by rw [h]
  rw [hlen, hlen] at hl
  by_cases hi' : i < p.length <;> by_cases hj' : j < p.length
  · by_contra hne
    unfold joinBlock at h
    rw [dif_pos hi', dif_pos hj'] at h
    have : (p.set i (p[i] ++ [n]))[i]'(by simpa) = (p.set j (p[j] ++ [n]))[i]'(by simpa) := by
      simp only [h]
    rw [List.getElem_set_self, List.getElem_set_ne (fun h => hne h.symm)] at this
    have := congrArg List.length this
    simp at this
  · simp [hi', hj'] at hl
  · simp [hi', hj'] at hl
  · omega

end Cgpm2
