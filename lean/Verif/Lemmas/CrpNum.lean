import Verif.Lemmas.CrpSupport

/-!
# Numeric facts about CRP (helpers)
-/

set_option linter.unusedSimpArgs false

namespace Cgpm2
open Spec

theorem pyLog_pos {x : ℝ} (h : 0 < x) : pyLog x = .ok (Real.log x) := by simp [pyLog, h]

theorem gammaln_add_one {x : ℝ} (h : 0 < x) : gammaln (x + 1) = Real.log x + gammaln x := by
  unfold gammaln
  rw [Real.Gamma_add_one h.ne', Real.log_mul h.ne' (Real.Gamma_pos_of_pos h).ne']

theorem gammaln_one : gammaln 1 = 0 := by simp [gammaln]

theorem sum_map_mul {α : Type} (l : List α) (f : α → ℝ) (a : ℝ) :
    (l.map fun x => f x * a).sum = (l.map f).sum * a := by
  induction l with
  | nil => simp
  | cons x l ih => simp [ih, add_mul]

theorem sum_map_div {α : Type} (l : List α) (f : α → ℝ) (a : ℝ) :
    (l.map fun x => f x / a).sum = (l.map f).sum / a := by
  simp only [div_eq_mul_inv]; exact sum_map_mul l f a⁻¹

namespace Crp

theorem sum_seated {c : Crp} (hI : c.Inv) :
    (c.tables.map fun t => (c.seated t : ℝ)).sum = c.N := by
  have hp : c.tables.Perm (Dict.values c.data).dedup :=
    (tables_perm c).trans (tables_perm_dedup hI)
  rw [(hp.map _).sum_eq]
  have h1 : ((Dict.values c.data).dedup.map fun t => (Dict.values c.data).count t).sum
      = (Dict.values c.data).length := List.sum_map_count_dedup_eq_length _
  have h2 : ((Dict.values c.data).dedup.map fun t => (c.seated t : ℝ)).sum
      = ((((Dict.values c.data).dedup.map fun t => (Dict.values c.data).count t).sum : ℕ) : ℝ) := by
    rw [Nat.cast_list_sum, List.map_map]; rfl
  rw [h2, h1, hI.N]
  simp [Dict.values]

theorem N_nonneg {c : Crp} (hI : c.Inv) : (0 : ℝ) ≤ c.N := by
  rw [hI.N]; simp

/-- Weight of a table for a new row, without the common denominator. -/
noncomputable def weight (c : Crp) (t : Int) : ℝ :=
  if c.seated t = 0 then c.alpha else c.seated t

theorem weight_pos {c : Crp} (ha : 0 < c.alpha) (t : Int) : 0 < c.weight t := by
  unfold weight
  split
  · exact ha
  · rename_i h; exact_mod_cast Nat.pos_of_ne_zero h

theorem calcPredictiveLogp_eq {c : Crp} (hI : c.Inv) (ha : 0 < c.alpha) (t : Int) :
    calcPredictiveLogp t c.N c.counts c.alpha =
      .ok (.fin (Real.log (c.weight t) - Real.log ((c.N : ℝ) + c.alpha))) := by
  have hN := N_nonneg hI
  have hd : (0 : ℝ) < (c.N : ℝ) + c.alpha := by linarith
  have hw := weight_pos ha t
  unfold calcPredictiveLogp
  rw [hI.counts]
  unfold weight at hw ⊢
  by_cases h : c.seated t = 0
  · simp only [h, if_true] at hw ⊢
    simp only [pyLog_pos hw, pyLog_pos hd]
    rfl
  · simp only [h, if_false] at hw ⊢
    simp only [Int.cast_natCast, pyLog_pos hw, pyLog_pos hd]
    rfl

theorem logpdf_unheld {c : Crp} (hI : c.Inv) (ha : 0 < c.alpha) {o : Var} (ho : c.outputs = [o])
    {r : RowId} (hr : r ∉ Dict.keys c.data) (q : ℚ) :
    c.logpdf r [(o, .num q)] [] [] = .ok (if truncate q ∈ c.support then
      .fin (Real.log (c.weight (truncate q)) - Real.log ((c.N : ℝ) + c.alpha)) else .ninf) := by
  have hn : Dict.get? c.data r = none := (Dict.get?_eq_none_iff _ _).2 hr
  have hf : firstOutput c.outputs = .ok o := by rw [ho]; rfl
  have hk : ¬ (Dict.keys [(o, Val.num q)] ≠ c.outputs) := by simp [Dict.keys, ho]
  unfold logpdf
  by_cases hs : truncate q ∈ c.support
  · simp [firstOutput_single, getItem_single, pyInt, hs, hn, calcPredictiveLogp_eq hI ha, bind, Except.bind,
      Dict.keys, ho, pure, Except.pure]
  · simp [firstOutput_single, getItem_single, pyInt, hs, bind, Except.bind,
      Dict.keys, ho, pure, Except.pure]

theorem logpdf_nan {c : Crp} {o : Var} (r : RowId) (ho : c.outputs = [o]) :
    c.logpdf r [(o, .nan)] [] [] = .error .valueError := by
  have hf : firstOutput c.outputs = .ok o := by rw [ho]; rfl
  unfold logpdf
  simp [firstOutput_single, getItem_single, pyInt, bind, Except.bind, Dict.keys, ho, pure, Except.pure]

theorem logpdf_held {c : Crp} {o : Var} (ho : c.outputs = [o])
    {r : RowId} {y : Int} (hr : Dict.get? c.data r = some y) (q : ℚ) :
    c.logpdf r [(o, .num q)] [] [] = .ok (if truncate q ∈ c.support then
      (if y = truncate q then .fin 0 else .ninf) else .ninf) := by
  have hf : firstOutput c.outputs = .ok o := by rw [ho]; rfl
  unfold logpdf
  by_cases hs : truncate q ∈ c.support
  · by_cases hy : y = truncate q
    · simp [firstOutput_single, getItem_single, pyInt, hs, hr, hy, bind, Except.bind,
        Dict.keys, ho, pure, Except.pure]
    · simp [firstOutput_single, getItem_single, pyInt, hs, hr, hy, bind, Except.bind,
        Dict.keys, ho, pure, Except.pure]
  · simp [firstOutput_single, getItem_single, pyInt, hs, bind, Except.bind,
      Dict.keys, ho, pure, Except.pure]

theorem seated_of_tables {c : Crp} (hI : c.Inv) {t : Int} (ht : t ∈ c.tables) :
    c.seated t ≠ 0 := by
  have := (mem_tables hI t).1 ht
  exact Nat.pos_iff_ne_zero.1 (List.count_pos_iff.2 this)

theorem seated_next {c : Crp} {f : Int} (h : NextTable (Dict.values c.data) f) :
    c.seated f = 0 := List.count_eq_zero.2 (nextTable_not_mem h)

theorem sum_weight {c : Crp} (hI : c.Inv) :
    (c.support.map c.weight).sum = (c.N : ℝ) + c.alpha := by
  obtain ⟨f, h1, h2⟩ := support_spec hI
  rw [h1, List.map_append, List.sum_append, ← sum_seated hI]
  congr 1
  · apply congrArg List.sum
    apply List.map_congr_left
    intro t ht
    rw [weight, if_neg (seated_of_tables hI ht)]
  · simp [weight, seated_next h2]

theorem exp_log_sub {a b : ℝ} (ha : 0 < a) (hb : 0 < b) :
    Real.exp (Real.log a - Real.log b) = a / b := by
  rw [Real.exp_sub, Real.exp_log ha, Real.exp_log hb]

/-- The score in closed form. -/
noncomputable def score (c : Crp) : ℝ :=
  (Dict.keys c.counts).length * Real.log c.alpha
    + ((Dict.values c.data).dedup.map fun t => gammaln (c.seated t)).sum
    + gammaln c.alpha - gammaln (c.N + c.alpha)

theorem counts_perm {c : Crp} (hI : c.Inv) :
    (Dict.values c.counts).Perm ((Dict.values c.data).dedup.map fun t => (c.seated t : Int)) := by
  have hp := (tables_perm_dedup hI).map fun t => (c.seated t : Int)
  refine List.Perm.trans (List.Perm.of_eq ?_) hp
  unfold Dict.values Dict.keys
  simp only [List.map_map]
  apply List.map_congr_left
  rintro ⟨t, n⟩ hm
  have h1 := Dict.get?_of_mem hI.nodupC hm
  rw [hI.counts] at h1
  split at h1
  · cases h1
  · simpa using h1.symm

theorem logpdfScore_eq {c : Crp} (hI : c.Inv) (ha : 0 < c.alpha) :
    c.logpdfScore = .ok (.fin c.score) := by
  unfold logpdfScore calcLogpdfMarginal
  rw [pyLog_pos ha]
  simp only [bind, Except.bind, pure, Except.pure, score]
  have h := ((counts_perm hI).map fun x : Int => gammaln (x : ℝ)).sum_eq
  rw [List.map_map] at h
  have hl : (Dict.values c.counts).length = (Dict.keys c.counts).length := by
    simp [Dict.values, Dict.keys]
  rw [h, hl]
  rfl

theorem perm_cons_dedup_of_mem {l : List Int} {t : Int} (h : t ∈ l) :
    ∃ m, l.dedup.Perm (t :: m) ∧ t ∉ m ∧ m = l.dedup.erase t :=
  ⟨l.dedup.erase t, List.perm_cons_erase (List.mem_dedup.2 h),
    fun h' => by
      have := (List.nodup_dedup l).mem_erase_iff.1 h'
      exact this.1 rfl, rfl⟩

theorem score_add {c : Crp} (hI : c.Inv) (ha : 0 < c.alpha) {r : RowId}
    (hr : r ∉ Dict.keys c.data) (t : Int) :
    (c.add r t).score = c.score +
      (Real.log (c.weight t) - Real.log ((c.N : ℝ) + c.alpha)) := by
  have hN := N_nonneg hI
  have hd : (0 : ℝ) < (c.N : ℝ) + c.alpha := by linarith
  have hvals := values_add hr t (s := c)
  have hs := fun t' => seated_add (s := c) hr t t'
  have hg : gammaln (((c.add r t).N : ℝ) + c.alpha)
      = Real.log ((c.N : ℝ) + c.alpha) + gammaln ((c.N : ℝ) + c.alpha) := by
    have : (((c.add r t).N : ℝ) + c.alpha) = ((c.N : ℝ) + c.alpha) + 1 := by
      simp [add]; ring
    rw [this, gammaln_add_one hd]
  have halpha : (c.add r t).alpha = c.alpha := rfl
  unfold score
  rw [halpha, hg]
  by_cases h0 : c.seated t = 0
  · -- a new table
    have hnot : t ∉ Dict.values c.data := List.count_eq_zero.1 h0
    have hnotk : t ∉ Dict.keys c.counts := by rw [mem_counts_iff hI]; exact hnot
    have hk : (Dict.keys (c.add r t).counts).length = (Dict.keys c.counts).length + 1 := by
      simp only [add]
      rw [Dict.keys_set_of_not_mem _ _ _ hnotk]; simp
    have hdd : (Dict.values (c.add r t).data).dedup.Perm (t :: (Dict.values c.data).dedup) := by
      rw [List.perm_ext_iff_of_nodup (List.nodup_dedup _)
        (List.nodup_cons.2 ⟨fun h => hnot (List.mem_dedup.1 h), List.nodup_dedup _⟩)]
      intro x
      simp only [List.mem_dedup, hvals, List.mem_append, List.mem_cons, List.not_mem_nil]
      tauto
    rw [hk, (hdd.map _).sum_eq]
    simp only [List.map_cons, List.sum_cons, hs, h0]
    have : ((Dict.values c.data).dedup.map fun t' =>
          gammaln ((c.seated t' + if t = t' then 1 else 0 : ℕ) : ℝ))
        = (Dict.values c.data).dedup.map fun t' => gammaln (c.seated t' : ℝ) := by
      apply List.map_congr_left
      intro t' ht'
      have : t ≠ t' := by rintro rfl; exact hnot (List.mem_dedup.1 ht')
      simp [this]
    rw [this]
    simp [weight, h0, gammaln_one]
    ring
  · -- an occupied table
    have hmem : t ∈ Dict.values c.data := List.count_pos_iff.1 (Nat.pos_of_ne_zero h0)
    have hmemk : t ∈ Dict.keys c.counts := by rw [mem_counts_iff hI]; exact hmem
    have hk : (Dict.keys (c.add r t).counts).length = (Dict.keys c.counts).length := by
      simp only [add]
      rw [Dict.keys_set_of_mem _ _ _ hmemk]
    obtain ⟨m, hm, htm, -⟩ := perm_cons_dedup_of_mem hmem
    have hdd : (Dict.values (c.add r t).data).dedup.Perm (t :: m) := by
      refine List.Perm.trans ?_ hm
      rw [List.perm_ext_iff_of_nodup (List.nodup_dedup _) (List.nodup_dedup _)]
      intro x
      rw [List.mem_dedup, hvals, List.mem_append, List.mem_dedup, List.mem_singleton]
      constructor
      · rintro (h | rfl); exacts [h, hmem]
      · exact Or.inl
    rw [hk, (hdd.map _).sum_eq, (hm.map _).sum_eq]
    simp only [List.map_cons, List.sum_cons, hs]
    have : (m.map fun t' => gammaln ((c.seated t' + if t = t' then 1 else 0 : ℕ) : ℝ))
        = m.map fun t' => gammaln (c.seated t' : ℝ) := by
      apply List.map_congr_left
      intro t' ht'
      have : t ≠ t' := by rintro rfl; exact htm ht'
      simp [this]
    rw [this]
    have hpos : (0 : ℝ) < c.seated t := by exact_mod_cast Nat.pos_of_ne_zero h0
    have hg2 := gammaln_add_one hpos
    simp only [if_true, Nat.cast_add, Nat.cast_one, hg2, weight, h0, if_false]
    ring

end Crp
end Cgpm2
