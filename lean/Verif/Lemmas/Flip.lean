import Verif.Spec.Chance

/-!
# Random choices (helpers)
-/

namespace Cgpm2
open Spec MeasureTheory

theorem invCdf_eq_iff (ps : List ℝ) (hp : ∀ p ∈ ps, 0 ≤ p) (v : ℝ) (hv : 0 ≤ v) (i : Nat)
    (hi : i < ps.length) :
    invCdf ps v = i ↔ (ps.take i).sum ≤ v ∧ v < (ps.take (i + 1)).sum := by
  induction ps generalizing v i with
  | nil => simp at hi
  | cons w ws ih =>
    have hw : 0 ≤ w := hp w (by simp)
    have hws : ∀ p ∈ ws, 0 ≤ p := fun p h => hp p (by simp [h])
    unfold invCdf
    cases i with
    | zero =>
      by_cases h : v < w
      · simp [h, hv]
      · simp [h]
    | succ i =>
      have hi' : i < ws.length := by simpa using hi
      simp only [List.take_succ_cons, List.sum_cons]
      have hsum : 0 ≤ (ws.take i).sum :=
        List.sum_nonneg fun x hx => hws x (List.mem_of_mem_take hx)
      by_cases h : v < w
      · simp only [h, if_true]
        constructor
        · intro h'; cases h'
        · rintro ⟨h1, _⟩; linarith
      · simp only [h, if_false]
        have := ih hws (v - w) (by linarith) i hi'
        constructor
        · intro h'
          have := this.1 (by omega)
          exact ⟨by linarith [this.1], by linarith [this.2]⟩
        · rintro ⟨h1, h2⟩
          have := this.2 ⟨by linarith, by linarith⟩
          omega

theorem invCdf_lt (ps : List ℝ) (v : ℝ) (h : v < ps.sum) (hv : 0 ≤ v) :
    invCdf ps v < ps.length := by
  induction ps generalizing v with
  | nil => simp at h; linarith
  | cons w ws ih =>
    unfold invCdf
    by_cases h' : v < w
    · simp [h']
    · simp only [h', if_false, List.length_cons]
      have := ih (v - w) (by rw [List.sum_cons] at h; linarith) (by linarith)
      omega

theorem fract_mul_lt {u S : ℝ} (hS : 0 < S) : 0 ≤ Int.fract u * S ∧ Int.fract u * S < S := by
  have h0 := Int.fract_nonneg u
  have h1 := Int.fract_lt_one u
  constructor
  · positivity
  · nlinarith

/-- The weight of the drawn index is positive. -/
theorem invCdf_pos (ps : List ℝ) (hp : ∀ p ∈ ps, 0 ≤ p) (v : ℝ) (hv : 0 ≤ v) (h : v < ps.sum) :
    0 < ps.getD (invCdf ps v) 0 := by
  have hi := invCdf_lt ps v h hv
  have := (invCdf_eq_iff ps hp v hv _ hi).1 rfl
  rw [List.sum_take_succ _ _ hi] at this
  rw [List.getD_eq_getElem?_getD, List.getElem?_eq_getElem hi]
  simp only [Option.getD_some]
  linarith [this.1, this.2]

/-- A choice with valid weights succeeds, and returns an index; with at least two weights
its weight is positive. -/
theorem pflipIdx_ok (ps : List ℝ) (hne : ps ≠ []) (hp : ∀ p ∈ ps, 0 ≤ p) (hs : 0 < ps.sum)
    (rng : Rng) : ∃ i rng', pflipIdx ps rng = (.ok i, rng') ∧ i < ps.length ∧
      0 < ps.getD i 0 := by
  match ps, hne with
  | [p], _ => exact ⟨0, rng, rfl, by simp, by simpa using hs⟩
  | p :: q :: ps, _ =>
    have hb := fract_mul_lt (u := (rng 0).u) hs
    refine ⟨_, _, by simp only [pflipIdx]; rw [if_pos ⟨hp, hs⟩], ?_, ?_⟩
    · exact invCdf_lt _ _ hb.2 hb.1
    · exact invCdf_pos _ hp _ hb.1 hb.2

theorem exp_nonneg (x : Fl) : 0 ≤ x.exp := by
  cases x <;> simp [Fl.exp, Real.exp_nonneg]

/-- All entries are log-probabilities. -/
theorem all_iff (l : List Fl) :
    l.all (fun x => match x with | .ninf => true | .fin _ => true | _ => false) = true ↔
      ∀ x ∈ l, x.IsLogP := by
  rw [List.all_eq_true]
  constructor
  · intro h x hx; have := h x hx; cases x <;> simp_all [Fl.IsLogP]
  · intro h x hx; have := h x hx; cases x <;> simp_all [Fl.IsLogP]

theorem logPflipIdx_eq (l : List Fl) (h : ∀ x ∈ l, x.IsLogP) :
    logPflipIdx l = pflipIdx (l.map Fl.exp) := by
  funext rng
  match l with
  | [] => rfl
  | [_] => rfl
  | a :: b :: l =>
    exact if_pos ((all_iff _).2 h)

theorem logPflipIdx_ok (l : List Fl) (hne : l ≠ []) (h : ∀ x ∈ l, x.IsLogP)
    (hs : 0 < (l.map Fl.exp).sum) (rng : Rng) :
    ∃ i rng', logPflipIdx l rng = (.ok i, rng') ∧ i < l.length ∧ 0 < (l.map Fl.exp).getD i 0 := by
  rw [logPflipIdx_eq l h]
  have := pflipIdx_ok (l.map Fl.exp) (by simpa using hne)
    (by intro p hp; obtain ⟨x, _, rfl⟩ := List.mem_map.1 hp; exact exp_nonneg x) hs rng
  simpa using this

theorem withUniform_uniform (u : ℝ) (hu : u ∈ Set.Ico (0 : ℝ) 1) (rng : Rng) :
    (Rng.uniform (withUniform u rng)).1 = u := by
  simp only [Rng.uniform, withUniform, if_true]
  exact Int.fract_eq_self.2 hu

theorem chance_congr {E F : ℝ → Prop} (h : ∀ u ∈ Set.Ico (0 : ℝ) 1, E u ↔ F u) :
    chance E = chance F := by
  unfold chance
  congr 1
  ext u
  simp only [Set.mem_ofPred_eq]
  constructor
  · rintro ⟨a, b⟩; exact ⟨a, (h u a).1 b⟩
  · rintro ⟨a, b⟩; exact ⟨a, (h u a).2 b⟩

theorem chance_true : chance (fun _ => True) = 1 := by
  unfold chance
  have : {u : ℝ | u ∈ Set.Ico (0 : ℝ) 1 ∧ True} = Set.Ico 0 1 := by ext; simp
  rw [this, Real.volume_Ico]; simp

theorem chance_false : chance (fun _ => False) = 0 := by
  unfold chance; simp

/-- The chance that index `i` is drawn is its share of the weights. -/
theorem chance_pflipIdx (ps : List ℝ) (hp : ∀ p ∈ ps, 0 ≤ p) (hs : 0 < ps.sum) (rng : Rng)
    (i : Nat) (hi : i < ps.length) :
    chance (fun u => (pflipIdx ps (withUniform u rng)).1 = .ok i)
      = ENNReal.ofReal (ps.getD i 0 / ps.sum) := by
  match ps with
  | [] => simp at hi
  | [p] =>
    have : i = 0 := by simpa using hi
    subst this
    simp only [pflipIdx, chance_true]
    have hp : p ≠ 0 := by have : 0 < p := by simpa using hs
                          exact this.ne'
    simp [hp]
  | p :: q :: ps =>
    set l := p :: q :: ps with hl
    have h1 : chance (fun u => (pflipIdx l (withUniform u rng)).1 = .ok i)
        = chance (fun u => (l.take i).sum / l.sum ≤ u ∧ u < (l.take (i + 1)).sum / l.sum) := by
      apply chance_congr
      intro u hu
      have : (pflipIdx l (withUniform u rng)).1 = .ok (invCdf l (u * l.sum)) := by
        have hf : Int.fract u = u := Int.fract_eq_self.2 hu
        rw [hl]; simp only [pflipIdx]; rw [← hl, if_pos ⟨hp, hs⟩]
        simp [Rng.uniform, withUniform, hf]
      rw [this]
      have hu0 : 0 ≤ u * l.sum := mul_nonneg hu.1 hs.le
      have := invCdf_eq_iff l hp (u * l.sum) hu0 i hi
      rw [div_le_iff₀ hs, lt_div_iff₀ hs, ← this]
      simp
    rw [h1]
    unfold chance
    have h0 : 0 ≤ (l.take i).sum / l.sum :=
      div_nonneg (List.sum_nonneg fun x hx => hp x (List.mem_of_mem_take hx)) hs.le
    have hle : (l.take (i + 1)).sum / l.sum ≤ 1 := by
      rw [div_le_one hs]
      have := List.sum_take_add_sum_drop l (i + 1)
      have h2 : 0 ≤ (l.drop (i + 1)).sum :=
        List.sum_nonneg fun x hx => hp x (List.mem_of_mem_drop hx)
      linarith
    have hset : {u : ℝ | u ∈ Set.Ico 0 1 ∧ ((l.take i).sum / l.sum ≤ u ∧
        u < (l.take (i + 1)).sum / l.sum)}
        = Set.Ico ((l.take i).sum / l.sum) ((l.take (i + 1)).sum / l.sum) := by
      ext u
      simp only [Set.mem_ofPred_eq, Set.mem_Ico]
      constructor
      · rintro ⟨_, h⟩; exact h
      · rintro ⟨a, b⟩; exact ⟨⟨by linarith, by linarith⟩, a, b⟩
    rw [hset, Real.volume_Ico, ← sub_div, List.sum_take_succ _ _ hi,
      List.getD_eq_getElem?_getD, List.getElem?_eq_getElem hi]
    simp

theorem chance_logPflipIdx (l : List Fl) (h : ∀ x ∈ l, x.IsLogP)
    (hs : 0 < (l.map Fl.exp).sum) (rng : Rng) (i : Nat) (hi : i < l.length) :
    chance (fun u => (logPflipIdx l (withUniform u rng)).1 = .ok i)
      = ENNReal.ofReal ((l.map Fl.exp).getD i 0 / (l.map Fl.exp).sum) := by
  rw [logPflipIdx_eq l h]
  exact chance_pflipIdx _
    (by intro p hp; obtain ⟨x, _, rfl⟩ := List.mem_map.1 hp; exact exp_nonneg x) hs rng i
    (by simpa using hi)

end Cgpm2
