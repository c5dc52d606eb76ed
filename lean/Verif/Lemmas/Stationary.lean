import Verif.Lemmas.SimulateLaw
import Verif.Lemmas.Hypers

/-!
# Random steps that keep a measure (helpers)
-/

namespace Cgpm2
open Spec MeasureTheory

variable {μ : Measure Draw} [IsProbabilityMeasure μ]

/-! ## A choice, and what follows it -/

theorem branch_law {n : Nat} {c : Rng → Except Err Nat × Rng} {p : Nat → ENNReal}
    (hc : ∀ g, ∃ i g', c g = (.ok i, g') ∧ i < n)
    (hl : ∀ i < n, ∀ B : Set Rng, MeasurableSet B → MeasurableSet {g | (c g).1 = .ok i ∧ (c g).2 ∈ B} ∧
      Pr μ {g | (c g).1 = .ok i ∧ (c g).2 ∈ B} = p i * Pr μ B)
    {A : Set Rng} {B : Nat → Set Rng} (hB : ∀ i < n, MeasurableSet (B i))
    (hA : ∀ g i g', c g = (.ok i, g') → (g ∈ A ↔ g' ∈ B i)) :
    MeasurableSet A ∧ Pr μ A = ∑ i ∈ Finset.range n, p i * Pr μ (B i) := by
  have hset : A = ⋃ i ∈ Finset.range n, {g | (c g).1 = .ok i ∧ (c g).2 ∈ B i} := by
    ext g
    obtain ⟨i, g', h1, h2⟩ := hc g
    rw [hA g i g' h1]
    simp only [Set.mem_iUnion, Set.mem_ofPred_eq, h1, Except.ok.injEq, exists_prop, Finset.mem_range]
    constructor
    · exact fun h => ⟨i, h2, rfl, h⟩
    · rintro ⟨j, -, rfl, h⟩
      exact h
  have h : ∀ i ∈ Finset.range n, _ := fun i hi => hl i (Finset.mem_range.1 hi) (B i) (hB i (Finset.mem_range.1 hi))
  rw [hset]
  refine ⟨Finset.measurableSet_biUnion _ fun i hi => (h i hi).1, ?_⟩
  rw [measure_biUnion_finset ?_ fun i hi => (h i hi).1]
  · exact Finset.sum_congr rfl fun i hi => (h i hi).2
  · intro i _ j _ hij
    refine Set.disjoint_left.2 fun g hi hj => hij ?_
    have := hi.1.symm.trans hj.1
    simpa using this

/-! ## Shuffles -/

/-- The draw of one entry of a list. -/
theorem uniform_law (hμ : IsDraw μ) (n : Nat) (i : Nat) (hi : i < n + 2) {B : Set Rng} (hB : MeasurableSet B) :
    MeasurableSet {g : Rng | ⌊g.uniform.1 * (n + 2 : ℝ)⌋.toNat = i ∧ g.uniform.2 ∈ B} ∧
    Pr μ {g : Rng | ⌊g.uniform.1 * (n + 2 : ℝ)⌋.toNat = i ∧ g.uniform.2 ∈ B} =
      ((n + 2 : Nat) : ENNReal)⁻¹ * Pr μ B := by
  set ps : List ℝ := List.replicate (n + 2) 1 with hps
  have hlen : ps.length = n + 2 := by simp [hps]
  have hp : ∀ p ∈ ps, 0 ≤ p := fun p hp => by rw [List.eq_of_mem_replicate hp]; exact zero_le_one
  have hsum : ps.sum = (n + 2 : ℝ) := by rw [hps, List.sum_replicate]; simp
  have hs : 0 < ps.sum := by rw [hsum]; positivity
  have htake : ∀ k ≤ n + 2, (ps.take k).sum = k := fun k hk => by
    rw [hps, List.take_replicate, List.sum_replicate, min_eq_left hk]
    simp
  obtain ⟨h1, h2⟩ := pflipIdx_law hμ ps hp hs i (by rw [hlen]; exact hi) hB
  have hset : {g : Rng | ⌊g.uniform.1 * (n + 2 : ℝ)⌋.toNat = i ∧ g.uniform.2 ∈ B} =
      {g : Rng | (pflipIdx ps g).1 = .ok i ∧ (pflipIdx ps g).2 ∈ B} := by
    ext g
    have e : pflipIdx ps g = (.ok (invCdf ps (g.uniform.1 * ps.sum)), g.uniform.2) := by
      have : ps = 1 :: 1 :: List.replicate n 1 := rfl
      rw [this]
      simp only [pflipIdx]
      rw [← this, if_pos ⟨hp, hs⟩]
    have hx : 0 ≤ g.uniform.1 * ps.sum := mul_nonneg (Int.fract_nonneg _) hs.le
    rw [Set.mem_ofPred_eq, Set.mem_ofPred_eq, e]
    have e2 : invCdf ps (g.uniform.1 * ps.sum) = i ↔ ⌊g.uniform.1 * (n + 2 : ℝ)⌋.toNat = i := by
      rw [invCdf_eq_iff ps hp _ hx i (by rw [hlen]; exact hi), htake i (by omega), htake (i + 1) (by omega), hsum]
      rw [hsum] at hx
      have h0 : 0 ≤ ⌊g.uniform.1 * (n + 2 : ℝ)⌋ := Int.floor_nonneg.2 hx
      rw [show (⌊g.uniform.1 * (n + 2 : ℝ)⌋.toNat = i ↔ ⌊g.uniform.1 * (n + 2 : ℝ)⌋ = (i : ℤ)) by omega,
        Int.floor_eq_iff]
      simp
    dsimp only
    rw [Except.ok.injEq, e2]
  rw [hset]
  refine ⟨h1, h2.trans ?_⟩
  rw [hsum]
  congr 1
  have : ps.getD i 0 = 1 := by
    rw [List.getD_eq_getElem?_getD, hps, List.getElem?_replicate, if_pos hi]
    rfl
  rw [this, one_div, ENNReal.ofReal_inv_of_pos (by positivity)]
  congr 1
  rw [show (n : ℝ) + 2 = ((n + 2 : Nat) : ℝ) by push_cast; ring, ENNReal.ofReal_natCast]

/-- The mean of a function over the orders of a list. -/
noncomputable def overOrders {α : Type} [DecidableEq α] : Nat → List α → (List α → ENNReal) → ENNReal
  | 0, l, H => H l
  | n + 1, l, H => ((n + 2 : Nat) : ENNReal)⁻¹ *
      (l.map fun x => overOrders n (l.erase x) fun xs => H (x :: xs)).sum

theorem overOrders_congr {α : Type} [DecidableEq α] (n : Nat) (l : List α) {H H' : List α → ENNReal}
    (h : ∀ l', l'.Perm l → H l' = H' l') : overOrders n l H = overOrders n l H' := by
  induction n generalizing l H H' with
  | zero => exact h l (.refl l)
  | succ n ih =>
    unfold overOrders
    congr 2
    refine List.map_congr_left fun x hx => ih _ fun xs hxs => h _ ?_
    exact (hxs.cons x).trans (List.perm_cons_erase hx).symm

theorem overOrders_perm {α : Type} [DecidableEq α] (n : Nat) {l l' : List α} (h : l.Perm l') (hn : l.length = n + 1)
    (H : List α → ENNReal) : overOrders n l H = overOrders n l' H := by
  induction n generalizing l l' H with
  | zero =>
    obtain ⟨a, rfl⟩ := List.length_eq_one_iff.1 hn
    rw [List.perm_singleton.1 h.symm]
  | succ n ih =>
    unfold overOrders
    congr 1
    rw [← (h.map _).sum_eq]
    congr 1
    refine List.map_congr_left fun x hx => ih (h.erase x) ?_ _
    rw [List.length_erase_of_mem hx, hn]
    rfl

theorem overOrders_const {α : Type} [DecidableEq α] (n : Nat) {l : List α} (hn : l.length = n + 1) (c : ENNReal) :
    overOrders n l (fun _ => c) = c := by
  induction n generalizing l with
  | zero => rfl
  | succ n ih =>
    unfold overOrders
    have : l.map (fun x => overOrders n (l.erase x) fun _ => c) = List.replicate (n + 2) c := by
      rw [List.eq_replicate_iff]
      refine ⟨by rw [List.length_map, hn], fun y hy => ?_⟩
      obtain ⟨x, hx, rfl⟩ := List.mem_map.1 hy
      exact ih (by rw [List.length_erase_of_mem hx, hn]; rfl)
    rw [this, List.sum_replicate, nsmul_eq_mul, ← mul_assoc, ENNReal.inv_mul_cancel (by simp) (by simp), one_mul]

theorem overOrders_sum {α U : Type} [DecidableEq α] (n : Nat) (l : List α) (vs : List U) (π : U → ENNReal)
    (H : U → List α → ENNReal) : (vs.map fun u => π u * overOrders n l (H u)).sum =
      overOrders n l fun l' => (vs.map fun u => π u * H u l').sum := by
  induction n generalizing l H with
  | zero => rfl
  | succ n ih =>
    unfold overOrders
    have : ∀ u, π u * (((n + 2 : Nat) : ENNReal)⁻¹ * (l.map fun x => overOrders n (l.erase x) fun xs => H u (x :: xs)).sum) =
        ((n + 2 : Nat) : ENNReal)⁻¹ * (l.map fun x => π u * overOrders n (l.erase x) fun xs => H u (x :: xs)).sum := by
      intro u
      rw [List.sum_map_mul_left]
      ring
    simp only [this]
    rw [List.sum_map_mul_left]
    congr 1
    have hswap : ∀ (l : List α) (f : U → α → ENNReal), (vs.map fun u => (l.map fun x => f u x).sum).sum =
        (l.map fun x => (vs.map fun u => f u x).sum).sum := by
      intro l f
      induction l with
      | nil => simp
      | cons a l ihl => simp only [List.map_cons, List.sum_cons, List.sum_map_add, ihl]
    rw [hswap]
    congr 1
    exact List.map_congr_left fun x _ => ih _ _

theorem permuteN_law {α : Type} [DecidableEq α] (hμ : IsDraw μ) (n : Nat) {l : List α} (hn : l.length = n + 1)
    (hnd : l.Nodup) {Ψ : List α → Set Rng} (hΨ : ∀ l', l'.Perm l → MeasurableSet (Ψ l')) :
    MeasurableSet {g | ∃ l' g', permuteN n l g = (.ok l', g') ∧ g' ∈ Ψ l'} ∧
    Pr μ {g | ∃ l' g', permuteN n l g = (.ok l', g') ∧ g' ∈ Ψ l'} = overOrders n l fun l' => Pr μ (Ψ l') := by
  induction n generalizing l Ψ with
  | zero =>
    have : {g : Rng | ∃ l' g', permuteN 0 l g = (.ok l', g') ∧ g' ∈ Ψ l'} = Ψ l := by
      ext g
      constructor
      · rintro ⟨l', g', h1, h2⟩
        cases h1
        exact h2
      · exact fun h => ⟨l, g, rfl, h⟩
    rw [this]
    exact ⟨hΨ l (.refl l), rfl⟩
  | succ n ih =>
    have hB : ∀ i (hi : i < n + 2), _ := fun i hi =>
      ih (l := l.eraseIdx i) (Ψ := fun xs => Ψ (l[i]'(by omega) :: xs)) (by rw [List.length_eraseIdx]; split <;> omega)
        (hnd.sublist (List.eraseIdx_sublist _ _)) fun l' hl' => hΨ _ ((hl'.cons _).trans (by
          have := (List.getElem_cons_eraseIdx_perm (l := l) (n := i) (by omega))
          exact this))
    obtain ⟨h1, h2⟩ := branch_law (μ := μ) (n := n + 2) (c := fun g => (.ok ⌊g.uniform.1 * (n + 2 : ℝ)⌋.toNat, g.uniform.2))
      (p := fun _ => ((n + 2 : Nat) : ENNReal)⁻¹)
      (A := {g | ∃ l' g', permuteN (n + 1) l g = (.ok l', g') ∧ g' ∈ Ψ l'})
      (B := fun i => {g | ∃ xs g', permuteN n (l.eraseIdx i) g = (.ok xs, g') ∧ ∃ hi : i < l.length, g' ∈ Ψ (l[i] :: xs)})
      (fun g => ⟨_, _, rfl, by
        have h0 : (0 : ℝ) ≤ g.uniform.1 := Int.fract_nonneg _
        have h1 : g.uniform.1 < 1 := Int.fract_lt_one _
        have : ⌊g.uniform.1 * (n + 2 : ℝ)⌋ < (n + 2 : ℤ) := by
          rw [Int.floor_lt]
          push_cast
          nlinarith
        omega⟩)
      (fun i hi B hB => by
        have := uniform_law hμ n i hi hB
        simpa only [Except.ok.injEq] using this)
      (fun i hi => by
        have := (hB i hi).1
        have hi' : i < l.length := by omega
        simpa only [hi', exists_true_left] using this)
      (fun g i g' hg => by
        have e1 : ⌊g.uniform.1 * (n + 2 : ℝ)⌋.toNat = i := by simpa using congrArg Prod.fst hg
        have e2 : g.uniform.2 = g' := congrArg Prod.snd hg
        rw [Set.mem_ofPred_eq, Set.mem_ofPred_eq]
        have e3 : permuteN (n + 1) l g = match l[⌊g.uniform.1 * (n + 2 : ℝ)⌋.toNat]? with
            | none => (.error .indexError, g.uniform.2)
            | some x =>
              match permuteN n (l.eraseIdx ⌊g.uniform.1 * (n + 2 : ℝ)⌋.toNat) g.uniform.2 with
              | (.ok xs, rng'') => (.ok (x :: xs), rng'')
              | (.error e, rng'') => (.error e, rng'') := rfl
        rw [e3, e1, e2]
        rcases hl : l[i]? with _ | x
        · rw [List.getElem?_eq_none_iff] at hl
          constructor
          · rintro ⟨l', g', h, -⟩
            cases h
          · rintro ⟨xs, g'', -, hi, -⟩
            omega
        · obtain ⟨hi, rfl⟩ := List.getElem?_eq_some_iff.1 hl
          dsimp only
          rcases hq : permuteN n (l.eraseIdx i) g' with ⟨e | xs, g''⟩
          · constructor
            · rintro ⟨l', g', h, -⟩
              cases h
            · rintro ⟨xs, g'', h, -⟩
              cases h
          · dsimp only
            constructor
            · rintro ⟨l', g', h, h'⟩
              cases h
              exact ⟨xs, g'', rfl, hi, h'⟩
            · rintro ⟨xs, g'', h, hi, h'⟩
              cases h
              exact ⟨_, _, rfl, h'⟩)
    refine ⟨h1, h2.trans ?_⟩
    unfold overOrders
    rw [← Finset.mul_sum]
    congr 1
    have key : ∀ i (hi : i < l.length), Pr μ {g | ∃ xs g', permuteN n (l.eraseIdx i) g = (.ok xs, g') ∧
        ∃ hi : i < l.length, g' ∈ Ψ (l[i] :: xs)} =
        overOrders n (l.erase l[i]) fun xs => Pr μ (Ψ (l[i] :: xs)) := by
      intro i hi
      have := (hB i (by omega)).2
      rw [List.Nodup.erase_getElem hnd i hi, ← this]
      simp only [hi, exists_true_left]
    rw [← hn, Finset.sum_range, ← List.sum_ofFn]
    congr 1
    refine List.ext_getElem (by simp) fun i hi hi' => ?_
    rw [List.getElem_ofFn, List.getElem_map]
    exact key i (by simpa using hi')

theorem permutation_law {α : Type} [DecidableEq α] (hμ : IsDraw μ) {l : List α} 
    (hnd : l.Nodup) {Ψ : List α → Set Rng} (hΨ : ∀ l', l'.Perm l → MeasurableSet (Ψ l')) :
    MeasurableSet {g | ∃ l' g', permutation l g = (.ok l', g') ∧ g' ∈ Ψ l'} ∧
    Pr μ {g | ∃ l' g', permutation l g = (.ok l', g') ∧ g' ∈ Ψ l'} =
      overOrders (l.length - 1) l fun l' => Pr μ (Ψ l') := by
  rcases hl : l.length with _ | n
  · obtain rfl := List.length_eq_zero_iff.1 hl
    have : {g : Rng | ∃ l' g', permutation ([] : List α) g = (.ok l', g') ∧ g' ∈ Ψ l'} = Ψ [] := by
      ext g
      constructor
      · rintro ⟨l', g', h1, h2⟩
        cases h1
        exact h2
      · exact fun h => ⟨[], g, rfl, h⟩
    rw [this]
    exact ⟨hΨ [] (.refl _), rfl⟩
  · unfold permutation
    rw [hl]
    exact permuteN_law hμ n hl hnd hΨ

end Cgpm2
