import Verif.Lemmas.CrpNum

/-!
# Gibbs tables and weights of a CRP (helpers)
-/

set_option linter.unusedSimpArgs false

namespace Cgpm2
open Spec

theorem mapM_ok {α β : Type} (l : List α) (f : α → Except Err β) (g : α → β)
    (h : ∀ x ∈ l, f x = .ok (g x)) : l.mapM f = .ok (l.map g) := by
  induction l with
  | nil => rfl
  | cons a l ih =>
    rw [List.mapM_cons, h a (by simp), ih fun x hx => h x (by simp [hx])]
    rfl

namespace Crp

/-- The fresh tables of a Gibbs step. -/
def freshTables (c : Crp) (n : Nat) : List Int :=
  match Dict.keys c.counts with
  | [] => []
  | k :: ks => (List.range n).map fun (j : Nat) => pyMax k ks + 1 + (j : Int)

theorem isSingleton_eq {c : Crp} (hI : c.Inv) {r : RowId} {t : Int}
    (hr : Dict.get? c.data r = some t) : c.isSingleton r = .ok (decide (c.seated t = 1)) := by
  have hp := seated_pos hr
  unfold isSingleton
  rw [hr]
  have hc : Dict.get? c.counts t = some (c.seated t : Int) := by
    rw [hI.counts, if_neg (by omega)]
  simp only [Dict.getItem_ok hc, bind, Except.bind, pure, Except.pure]
  congr 1
  by_cases h : c.seated t = 1
  · simp [h]
  · have : ((c.seated t : Int) == 1) = false := by
      simp; omega
    simp [h, this]

theorem keys_ne_nil {c : Crp} (hI : c.Inv) {r : RowId} {t : Int}
    (hr : Dict.get? c.data r = some t) : Dict.keys c.counts ≠ [] := by
  intro h
  have : t ∈ Dict.keys c.counts := by
    rw [mem_counts_iff hI]
    exact List.mem_map.2 ⟨(r, t), Dict.mem_of_get? hr, rfl⟩
  simp [h] at this

theorem gibbsTables_eq {c : Crp} (hI : c.Inv) {r : RowId} {t : Int}
    (hr : Dict.get? c.data r = some t) {m : Nat} (hm : 1 ≤ m) :
    c.gibbsTables r m =
      .ok (c.tables ++ c.freshTables (if c.seated t = 1 then m - 1 else m)) := by
  unfold gibbsTables
  have hm' : ¬ (m = 0) := by omega
  simp only [hm', if_false, isSingleton_eq hI hr, bind, Except.bind, pure, Except.pure]
  unfold freshTables tables
  cases hk : Dict.keys c.counts with
  | nil => exact absurd hk (keys_ne_nil hI hr)
  | cons k ks =>
    by_cases h1 : c.seated t = 1
    · by_cases h2 : m - 1 = 0
      · simp [h1, h2]
      · simp [h1, h2]
    · simp [h1, hm']

theorem fresh_gt {c : Crp} {n : Nat} {x : Int} (hx : x ∈ c.freshTables n) :
    ∀ y ∈ Dict.keys c.counts, y < x := by
  unfold freshTables at hx
  cases hk : Dict.keys c.counts with
  | nil => simp [hk] at hx
  | cons k ks =>
    simp only [hk, List.mem_map, List.mem_range] at hx
    obtain ⟨j, hj, rfl⟩ := hx
    have := le_foldl_max k ks
    intro y hy
    rcases List.mem_cons.1 hy with rfl | hy
    · have := this.1; omega
    · have := this.2 y hy; omega

theorem fresh_not_mem {c : Crp} (hI : c.Inv) {n : Nat} {x : Int} (hx : x ∈ c.freshTables n) :
    c.seated x = 0 := by
  by_contra h
  have : x ∈ Dict.keys c.counts := by
    rw [mem_counts_iff hI]; exact List.count_pos_iff.1 (Nat.pos_of_ne_zero h)
  exact absurd (fresh_gt hx x this) (lt_irrefl _)

theorem fresh_length {c : Crp} (h : Dict.keys c.counts ≠ []) (n : Nat) :
    (c.freshTables n).length = n := by
  unfold freshTables
  cases hk : Dict.keys c.counts with
  | nil => exact absurd hk h
  | cons k ks => simp

theorem fresh_nodup (c : Crp) (n : Nat) : (c.freshTables n).Nodup := by
  unfold freshTables
  cases Dict.keys c.counts with
  | nil => simp
  | cons k ks =>
    refine List.Nodup.map ?_ List.nodup_range
    intro a b h
    simp only at h; omega

/-- Weight of a table in the Gibbs step for a row sitting at `t0`. -/
noncomputable def gibbsWeight (c : Crp) (t0 : Int) (m : Nat) (t : Int) : ℝ :=
  if t = t0 then (if c.seated t0 = 1 then c.alpha / m else (c.seated t0 : ℝ) - 1)
  else if c.seated t = 0 then c.alpha / m else c.seated t

theorem gibbsWeight_pos {c : Crp} (ha : 0 < c.alpha) {r : RowId} {t0 : Int}
    (hr : Dict.get? c.data r = some t0) {m : Nat} (hm : 1 ≤ m) (t : Int) :
    0 < c.gibbsWeight t0 m t := by
  have hm' : (0 : ℝ) < m := by exact_mod_cast hm
  have hp := seated_pos hr
  unfold gibbsWeight
  split
  · split
    · positivity
    · rename_i h
      have : (1 : ℝ) < c.seated t0 := by
        have : 1 < c.seated t0 := by omega
        exact_mod_cast this
      linarith
  · split
    · positivity
    · rename_i h
      have : 0 < c.seated t := Nat.pos_of_ne_zero h
      exact_mod_cast this

theorem gibbsLogps_eq {c : Crp} (hI : c.Inv) (ha : 0 < c.alpha) {r : RowId} {t0 : Int}
    (hr : Dict.get? c.data r = some t0) {m : Nat} (hm : 1 ≤ m) :
    ∃ ts, c.gibbsTables r m = .ok ts ∧
      c.gibbsLogps r m = .ok (ts.map fun t => Real.log (c.gibbsWeight t0 m t)) := by
  refine ⟨_, gibbsTables_eq hI hr hm, ?_⟩
  have hp := seated_pos hr
  have hm' : ¬ (m = 0) := by omega
  have hc : Dict.get? c.counts t0 = some (c.seated t0 : Int) := by
    rw [hI.counts, if_neg (by omega)]
  unfold gibbsLogps
  rw [hr]
  simp only [hm', if_false, isSingleton_eq hI hr, Dict.getItem_ok hc, gibbsTables_eq hI hr hm,
    bind, Except.bind, pure, Except.pure]
  apply mapM_ok
  intro t _
  have hw := gibbsWeight_pos ha hr hm t
  rw [← pyLog_pos hw]
  congr 1
  unfold gibbsWeight
  by_cases h1 : t = t0
  · by_cases h2 : c.seated t0 = 1 <;> simp [h1, h2]
  · rw [hI.counts]
    by_cases h2 : c.seated t = 0 <;> simp [h1, h2]

theorem sum_gibbsWeight {c : Crp} (hI : c.Inv) {r : RowId} {t0 : Int}
    (hr : Dict.get? c.data r = some t0) {m : Nat} (hm : 1 ≤ m) :
    ((c.tables ++ c.freshTables (if c.seated t0 = 1 then m - 1 else m)).map
      (c.gibbsWeight t0 m)).sum = (c.N : ℝ) - 1 + c.alpha := by
  have hp := seated_pos hr
  have ht0 : t0 ∈ c.tables := by
    rw [mem_tables hI]; exact List.count_pos_iff.1 hp
  have hm0 : (m : ℝ) ≠ 0 := by
    have : m ≠ 0 := by omega
    exact_mod_cast this
  have hfresh : ∀ n, ((c.freshTables n).map (c.gibbsWeight t0 m)).sum = n * (c.alpha / m) := by
    intro n
    have : (c.freshTables n).map (c.gibbsWeight t0 m)
        = (c.freshTables n).map fun _ => c.alpha / m := by
      apply List.map_congr_left
      intro x hx
      have h0 := fresh_not_mem hI hx
      have hne : x ≠ t0 := by rintro rfl; omega
      simp [gibbsWeight, hne, h0]
    rw [this]
    simp [fresh_length (keys_ne_nil hI hr)]
  have hperm := List.perm_cons_erase ht0
  have hnd := tables_nodup hI
  have hsum := sum_seated hI
  rw [(hperm.map _).sum_eq] at hsum
  simp only [List.map_cons, List.sum_cons] at hsum
  rw [List.map_append, List.sum_append, hfresh, (hperm.map _).sum_eq]
  simp only [List.map_cons, List.sum_cons]
  have hrest : ((c.tables.erase t0).map (c.gibbsWeight t0 m))
      = (c.tables.erase t0).map fun t => (c.seated t : ℝ) := by
    apply List.map_congr_left
    intro x hx
    have hx' := (hnd.mem_erase_iff).1 hx
    simp [gibbsWeight, hx'.1, seated_of_tables hI hx'.2]
  rw [hrest]
  by_cases h1 : c.seated t0 = 1
  · have hcast : ((m - 1 : ℕ) : ℝ) = (m : ℝ) - 1 := by
      rw [Nat.cast_sub hm]; simp
    simp only [h1, if_true, gibbsWeight, Nat.cast_one] at hsum ⊢
    rw [hcast]
    field_simp
    linear_combination (m : ℝ) * hsum
  · simp only [h1, if_false, if_true, gibbsWeight] at hsum ⊢
    field_simp
    linear_combination hsum

end Crp
end Cgpm2
