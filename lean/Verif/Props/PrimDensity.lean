import Verif.Lemmas.PrimSim
import Verif.Lemmas.Concrete
import Verif.Spec.Prob

/-!
# C05-C09, C17: the discrete predictive distributions and their samplers
-/

namespace Cgpm2.Props
open Spec

/-! ## C05: the CRP predictive is normalised on its support -/

/-- For a row `r` that is not held (for instance `None`): each table of the support has a
positive probability, they sum to 1, and any other integer has `-inf`. -/
theorem C05_crp {c : Crp} (h : LegallyReachable (.crp c)) {o : Var} (ho : c.outputs = [o])
    {r : RowId} (hr : r ∉ Dict.keys c.data) :
    (∀ t ∈ c.support, Finite (c.logpdf r [(o, .num (t : ℚ))] [] [])) ∧
    (c.support.map fun t : Int => prob (c.logpdf r [(o, .num (t : ℚ))] [] [])).sum = 1 ∧
    ∀ t : Int, t ∉ c.support → c.logpdf r [(o, .num (t : ℚ))] [] [] = .ok .ninf := by
  have hI : c.Inv := h.inv
  have ha : 0 < c.alpha := h.legal
  have hN := Crp.N_nonneg hI
  have hd : (0 : ℝ) < (c.N : ℝ) + c.alpha := by linarith
  have hlp := fun t : Int => Crp.logpdf_unheld hI ha ho hr (t : ℚ)
  simp only [truncate_intCast] at hlp
  refine ⟨fun t ht => ⟨_, by rw [hlp, if_pos ht]⟩, ?_, fun t ht => by rw [hlp, if_neg ht]⟩
  have : (c.support.map fun t : Int => prob (c.logpdf r [(o, .num (t : ℚ))] [] []))
      = c.support.map fun t => c.weight t / ((c.N : ℝ) + c.alpha) := by
    apply List.map_congr_left
    intro t ht
    rw [hlp, if_pos ht, prob_fin, Crp.exp_log_sub (Crp.weight_pos ha t) hd]
  rw [this, sum_map_div, Crp.sum_weight hI, div_self hd.ne']

example : LegallyReachable (.crp Concrete.crp3') ∧ none ∉ Dict.keys Concrete.crp3'.data :=
  ⟨Concrete.crp3_eq ▸ Concrete.crp3_legally, by simp [Concrete.crp3', Dict.keys]⟩

/-! ## C06: support, and what `simulate` and `logpdf` do with it -/

/-- The support is strictly increasing and consists of the occupied tables and one more, the
next unused one. -/
theorem C06_support {c : Crp} (h : Reachable (.crp c)) :
    c.support.Pairwise (· < ·) ∧
    ∃ f, NextTable (c.data.map Prod.snd) f ∧ f ∉ c.data.map Prod.snd ∧
      ∀ t, t ∈ c.support ↔ t ∈ c.data.map Prod.snd ∨ t = f := by
  have hI : c.Inv := h.inv
  refine ⟨Crp.support_increasing hI, ?_⟩
  obtain ⟨f, h1, h2⟩ := Crp.support_spec hI
  refine ⟨f, h2, Crp.nextTable_not_mem h2, fun t => ?_⟩
  rw [h1, List.mem_append, Crp.mem_tables hI, List.mem_singleton]; rfl

/-- For a row not held, `observe` accepts an integer exactly when it is in the support. -/
theorem C06_observe {c : Crp} {o : Var} (ho : c.outputs = [o])
    {r : RowId} (hr : r ∉ Dict.keys c.data) (t : Int) :
    (Crp.observe r [(o, .num (t : ℚ))] [] c).1 = .ok () ↔ t ∈ c.support := by
  constructor
  · intro h'
    rcases Crp.observe_cases (s := c) ho r [(o, .num (t : ℚ))] [] with ⟨e, he⟩ | ⟨q, h1, _, _, h4, _⟩
    · rw [he] at h'; cases h'
    · simp only [List.cons.injEq, Prod.mk.injEq, Val.num.injEq, true_and, and_true] at h1
      rw [← h1, truncate_intCast] at h4; exact h4
  · intro ht
    rw [Crp.observe_ok ho hr (q := (t : ℚ)) (by rwa [truncate_intCast])]

/-- For a row not held, `simulate` succeeds and returns a table of the support, whatever the
random state. -/
theorem C06_simulate {c : Crp} (h : LegallyReachable (.crp c)) {o : Var} (ho : c.outputs = [o])
    {r : RowId} (hr : r ∉ Dict.keys c.data) (rng : Rng) :
    ∃ t ∈ c.support, (c.simulate r [o] [] [] none rng).1 = .ok (.one [(o, .num (t : ℚ))]) := by
  obtain ⟨t, rng', h1, h2⟩ := Crp.simulate1_ok h.inv h.legal ho hr rng
  exact ⟨t, h2, by rw [Crp.simulate, simulateMany_none, h1]⟩

/-- For a held row, `simulate` returns its table, and `logpdf` is 0 on it and `-inf` on every
other integer. -/
theorem C06_held {c : Crp} (h : Reachable (.crp c)) {o : Var} (ho : c.outputs = [o])
    {r : RowId} {t : Int} (hr : Dict.get? c.data r = some t) :
    (∀ rng, (c.simulate r [o] [] [] none rng).1 = .ok (.one [(o, .num (t : ℚ))])) ∧
    c.logpdf r [(o, .num (t : ℚ))] [] [] = .ok (.fin 0) ∧
    ∀ t' : Int, t' ≠ t → c.logpdf r [(o, .num (t' : ℚ))] [] [] = .ok .ninf := by
  have hI : c.Inv := h.inv
  have ht : t ∈ c.support := by
    rw [Crp.mem_support_iff hI]
    exact Or.inl (List.mem_map.2 ⟨(r, t), Dict.mem_of_get? hr, rfl⟩)
  refine ⟨fun rng => ?_, ?_, ?_⟩
  · rw [Crp.simulate, simulateMany_none, Crp.simulate1_held ho hr]
  · rw [Crp.logpdf_held ho hr, truncate_intCast, if_pos ht, if_pos rfl]
  · intro t' ht'
    rw [Crp.logpdf_held ho hr, truncate_intCast, if_neg (Ne.symm ht')]
    simp

example : LegallyReachable (.crp Concrete.crp3') ∧ Concrete.crp3'.outputs = [5] ∧
    some 7 ∉ Dict.keys Concrete.crp3'.data ∧ Dict.get? Concrete.crp3'.data (some 2) = some 1 :=
  ⟨Concrete.crp3_eq ▸ Concrete.crp3_legally, rfl, by simp [Concrete.crp3', Dict.keys],
    by simp [Concrete.crp3', Dict.get?]⟩

/-! ## C07: Gibbs proposal weights -/

/-- For a held row `r` at table `t0` and `m ≥ 1`: the proposal tables are distinct; there is one
finite log weight per table; the weights sum to `(N - 1) + alpha` with `N` the number of rows;
every table occupied by another row is proposed, with weight the number of other rows there, and
every other proposed table has weight `alpha / m`. -/
theorem C07_gibbs {c : Crp} (h : LegallyReachable (.crp c)) {r : RowId} {t0 : Int}
    (hr : Dict.get? c.data r = some t0) {m : Nat} (hm : 1 ≤ m) :
    ∃ ts ws, c.gibbsTables r m = .ok ts ∧ c.gibbsLogps r m = .ok ws ∧
      ts.Nodup ∧ ws.length = ts.length ∧
      (ws.map Real.exp).sum = (c.data.length : ℝ) - 1 + c.alpha ∧
      (∀ t, t ∈ (Dict.del c.data r).map Prod.snd →
        ∃ i : Nat, ts[i]? = some t ∧
          (ws[i]?).map Real.exp = some (((Dict.del c.data r).map Prod.snd).count t : ℝ)) ∧
      (∀ i : Nat, ∀ t, ts[i]? = some t → t ∉ (Dict.del c.data r).map Prod.snd →
        (ws[i]?).map Real.exp = some (c.alpha / m)) := by
  have hI : c.Inv := h.inv
  have ha : 0 < c.alpha := h.legal
  obtain ⟨ts, h1, h2⟩ := Crp.gibbsLogps_eq hI ha hr hm
  have h3 := Crp.gibbsTables_eq hI hr hm
  have hts := h1.symm.trans h3
  injection hts with hts
  have hw := Crp.gibbsWeight_pos ha hr hm
  have hexp : (ts.map fun t => Real.log (c.gibbsWeight t0 m t)).map Real.exp
      = ts.map (c.gibbsWeight t0 m) := by
    rw [List.map_map]
    apply List.map_congr_left
    intro t _
    exact Real.exp_log (hw t)
  -- counting without `r`
  have hcount : ∀ t, (c.seated t : ℕ) = ((Dict.del c.data r).map Prod.snd).count t
      + if t = t0 then 1 else 0 := by
    intro t
    have hp : (c.data.map Prod.snd).Perm (t0 :: (Dict.del c.data r).map Prod.snd) :=
      Dict.perm_values_del _ _ _ hr
    have := hp.count_eq t
    rw [List.count_cons] at this
    have e : c.seated t = (c.data.map Prod.snd).count t := rfl
    rw [e, this]
    congr 1
    by_cases h : t = t0
    · subst h; simp
    · have : ¬ (t0 = t) := fun h' => h h'.symm
      simp [h, this]
  have hp := Crp.seated_pos hr
  have hmem : ∀ t, t ∈ (Dict.del c.data r).map Prod.snd → t ∈ c.tables := by
    intro t ht
    rw [Crp.mem_tables hI]
    have := hcount t
    have h0 : 0 < ((Dict.del c.data r).map Prod.snd).count t := List.count_pos_iff.2 ht
    apply List.count_pos_iff.1
    change 0 < c.seated t
    omega
  refine ⟨ts, _, h1, h2, ?_, by simp, ?_, ?_, ?_⟩
  · rw [hts, List.nodup_append]
    refine ⟨Crp.tables_nodup hI, Crp.fresh_nodup _ _, ?_⟩
    rintro a ha' b hb rfl
    have := Crp.fresh_not_mem hI hb
    exact Crp.seated_of_tables hI ha' this
  · rw [hexp, hts, Crp.sum_gibbsWeight hI hr hm, hI.N]
    simp
  · intro t ht
    have htt : t ∈ ts := by rw [hts]; exact List.mem_append_left _ (hmem t ht)
    obtain ⟨i, hi, hit⟩ := List.mem_iff_getElem.1 htt
    refine ⟨i, by rw [List.getElem?_eq_getElem hi, hit], ?_⟩
    have hi' : (ts.map fun t => Real.log (c.gibbsWeight t0 m t))[i]?
        = some (Real.log (c.gibbsWeight t0 m t)) := by
      rw [List.getElem?_map, List.getElem?_eq_getElem hi, hit]; rfl
    rw [hi', Option.map_some, Real.exp_log (hw t)]
    congr 1
    have h0 : 0 < ((Dict.del c.data r).map Prod.snd).count t := List.count_pos_iff.2 ht
    have hc := hcount t
    unfold Crp.gibbsWeight
    by_cases h : t = t0
    · subst h
      simp only [if_true] at hc ⊢
      rw [if_neg (by omega), hc]
      simp
    · simp only [h, if_false, add_zero] at hc ⊢
      rw [if_neg (by omega), hc]
  · intro i t hit hnt
    have hi' : (ts.map fun t => Real.log (c.gibbsWeight t0 m t))[i]?
        = some (Real.log (c.gibbsWeight t0 m t)) := by
      rw [List.getElem?_map, hit]; rfl
    rw [hi', Option.map_some, Real.exp_log (hw t)]
    congr 1
    have h0 : ((Dict.del c.data r).map Prod.snd).count t = 0 := List.count_eq_zero.2 hnt
    have hc := hcount t
    unfold Crp.gibbsWeight
    by_cases h : t = t0
    · subst h
      simp only [if_true] at hc ⊢
      rw [if_pos (by omega)]
    · simp only [h, if_false, add_zero] at hc ⊢
      rw [if_pos (by omega)]

example : LegallyReachable (.crp Concrete.crp3') ∧
    Dict.get? Concrete.crp3'.data (some 1) = some 0 :=
  ⟨Concrete.crp3_eq ▸ Concrete.crp3_legally, by simp [Concrete.crp3', Dict.get?]⟩

/-! ## C08: Categorical -/

/-- For a row not held: each category has a positive probability, they sum to 1, any other number
has `-inf` and a missing value has 0. -/
theorem C08_categorical {c : Categorical} (h : LegallyReachable (.categorical c)) {o : Var}
    (ho : c.outputs = [o]) {r : RowId} (hr : r ∉ Dict.keys c.data) :
    (∀ i < c.k, Finite (c.logpdf r [(o, .num (i : ℚ))] [] [])) ∧
    ((List.range c.k).map fun i : Nat => prob (c.logpdf r [(o, .num (i : ℚ))] [] [])).sum = 1 ∧
    (∀ q : ℚ, (¬ ∃ i : Nat, i < c.k ∧ q = i) → c.logpdf r [(o, .num q)] [] [] = .ok .ninf) ∧
    c.logpdf r [(o, .nan)] [] [] = .ok (.fin 0) := by
  have hI : c.Inv := h.inv
  have hL := h.legal
  have hd := Categorical.denom_pos hI hL
  refine ⟨fun i hi => ⟨_, Categorical.logpdf_num hI hL ho hr hi⟩, ?_,
    fun q hq => Categorical.logpdf_illegal ho hr hq, Categorical.logpdf_nan ho hr⟩
  have : ((List.range c.k).map fun i : Nat => prob (c.logpdf r [(o, .num (i : ℚ))] [] []))
      = (List.range c.k).map fun i => (c.alpha + c.cnt i) / ((c.N : ℝ) + c.alpha * c.k) := by
    apply List.map_congr_left
    intro i hi
    have h1 : (0 : ℝ) < c.alpha + c.cnt i := by
      have : (0 : ℝ) ≤ c.cnt i := by simp
      linarith [hL.1]
    rw [Categorical.logpdf_num hI hL ho hr (List.mem_range.1 hi), prob_fin,
      Crp.exp_log_sub h1 hd]
  rw [this, sum_map_div, Categorical.sum_alpha_cnt hI, div_self hd.ne']

example : LegallyReachable Concrete.cat3 := Concrete.cat3_legally

/-! ## C09: Bernoulli -/

/-- For a row not held: 0 and 1 have positive probabilities summing to 1 and any other number
has `-inf`. -/
theorem C09_bernoulli {c : Bernoulli} (h : LegallyReachable (.bernoulli c)) {o : Var}
    (ho : c.outputs = [o]) {r : RowId} (hr : r ∉ Dict.keys c.data) :
    Finite (c.logpdf r [(o, .num 0)] [] []) ∧ Finite (c.logpdf r [(o, .num 1)] [] []) ∧
    prob (c.logpdf r [(o, .num 0)] [] []) + prob (c.logpdf r [(o, .num 1)] [] []) = 1 ∧
    ∀ q : ℚ, q ≠ 0 → q ≠ 1 → c.logpdf r [(o, .num q)] [] [] = .ok .ninf := by
  have hI : c.Inv := h.inv
  have hL := h.legal
  have hw := Bernoulli.weight_pos hL
  have hd := add_pos (hw false) (hw true)
  have h0 := Bernoulli.logpdf_num hI hL ho hr (q := 0) (Or.inl rfl)
  have h1 := Bernoulli.logpdf_num hI hL ho hr (q := 1) (Or.inr rfl)
  refine ⟨⟨_, h0⟩, ⟨_, h1⟩, ?_, fun q a b => Bernoulli.logpdf_illegal ho hr (by tauto)⟩
  rw [h0, h1, prob_fin, prob_fin, Crp.exp_log_sub (hw _) hd, Crp.exp_log_sub (hw _) hd]
  simp only [zero_ne_one, decide_false, decide_true, ← add_div]
  exact div_self hd.ne'

example : LegallyReachable Concrete.ber2 := Concrete.ber2_legally

/-! ## C17: the samplers draw from the distribution that `logpdf` reports -/

/-- CRP: over the next uniform variate, the chance that `simulate` of a row not held returns table
`t` is the probability `logpdf` reports for `t`, for every integer `t`. -/
theorem C17_crp {c : Crp} (h : LegallyReachable (.crp c)) {o : Var} (ho : c.outputs = [o])
    {r : RowId} (hr : r ∉ Dict.keys c.data) (rng : Rng) (t : Int) :
    chance (fun u => (c.simulate r [o] [] [] none (withUniform u rng)).1
        = .ok (.one [(o, .num (t : ℚ))]))
      = ENNReal.ofReal (prob (c.logpdf r [(o, .num (t : ℚ))] [] [])) := by
  have hI : c.Inv := h.inv
  have ha : 0 < c.alpha := h.legal
  have hinj : Function.Injective fun t : Int => (t : ℚ) := Int.cast_injective
  have hc := chance_choice (c.support.map fun t : Int => (t : ℚ))
    ((Crp.support_nodup hI).map hinj) (c.logWeights.map Fl.exp)
    (by simp [Crp.logWeights])
    (by intro p hp; obtain ⟨x, _, rfl⟩ := List.mem_map.1 hp; exact exp_nonneg x)
    (by rw [Crp.logWeights_sum hI ha]; norm_num) rng (t : ℚ)
  rw [Crp.logWeights_sum hI ha, div_one, Crp.logWeights_exp hI ha] at hc
  have hmem : ((t : ℚ) ∈ c.support.map fun t : Int => (t : ℚ)) ↔ t ∈ c.support :=
    List.mem_map_of_injective hinj
  have e1 : chance (fun u => (c.simulate r [o] [] [] none (withUniform u rng)).1
        = .ok (.one [(o, .num (t : ℚ))])) = _ := Eq.trans (chance_congr ?_) hc
  · rw [e1]
    congr 1
    rw [Crp.logpdf_unheld hI ha ho hr, truncate_intCast]
    by_cases ht : t ∈ c.support
    · have hN := Crp.N_nonneg hI
      have hd : (0 : ℝ) < (c.N : ℝ) + c.alpha := by linarith
      rw [if_pos (hmem.2 ht), if_pos ht, prob_fin, Crp.exp_log_sub (Crp.weight_pos ha t) hd]
      have hi : (c.support.map fun t : Int => (t : ℚ)).idxOf (t : ℚ) = c.support.idxOf t := by
        rw [idxOf_map_inj hinj]
      have hlt : c.support.idxOf t < c.support.length := List.idxOf_lt_length_of_mem ht
      rw [hi, List.getD_eq_getElem?_getD, List.getElem?_map, List.getElem?_eq_getElem hlt]
      simp
    · rw [if_neg (fun h => ht (hmem.1 h)), if_neg ht, prob_ninf]
  · intro u _
    rw [Crp.simulate, simulateMany_none, Crp.simulate1_unheld hI ha ho hr,
      logPflipIdx_eq _ (Crp.logWeights_isLogP c), Crp.logWeights_exp hI ha]
    rcases pflipIdx (c.support.map fun t => c.weight t / ((c.N : ℝ) + c.alpha))
      (withUniform u rng) with ⟨e | i, rng'⟩
    · simp
    · simp only [Except.ok.injEq, SimOut.one.injEq, List.cons.injEq, Prod.mk.injEq, Val.num.injEq,
        true_and, and_true, exists_eq_left']
      have : (c.support.map fun t : Int => (t : ℚ)).getD i 0 = ((c.support.getD i 0 : Int) : ℚ) := by
        simp only [List.getD_eq_getElem?_getD, List.getElem?_map]
        cases c.support[i]? <;> simp
      rw [this]

/-- Categorical: the same, for every number `x`. -/
theorem C17_categorical {c : Categorical} (h : LegallyReachable (.categorical c)) {o : Var}
    (ho : c.outputs = [o]) {r : RowId} (hr : r ∉ Dict.keys c.data) (rng : Rng) (x : ℚ) :
    chance (fun u => (c.simulate r [o] [] [] none (withUniform u rng)).1
        = .ok (.one [(o, .num x)]))
      = ENNReal.ofReal (prob (c.logpdf r [(o, .num x)] [] [])) := by
  have hI : c.Inv := h.inv
  have hL := h.legal
  have hd := Categorical.denom_pos hI hL
  have hinj : Function.Injective fun i : Nat => (i : ℚ) := Nat.cast_injective
  have hfree : ∀ q, Dict.get? c.data r ≠ some (.num q) := by
    rw [(Dict.get?_eq_none_iff _ _).2 hr]; simp
  have hc := chance_choice ((List.range c.k).map fun i : Nat => (i : ℚ))
    (List.nodup_range.map hinj) c.simulateWeights
    (by rw [Categorical.simulateWeights_eq hI]; simp)
    (Categorical.simulateWeights_nonneg hI hL)
    (by rw [Categorical.simulateWeights_sum hI]; exact hd) rng x
  rw [Categorical.simulateWeights_sum hI, Categorical.simulateWeights_eq hI] at hc
  have e1 : chance (fun u => (c.simulate r [o] [] [] none (withUniform u rng)).1
        = .ok (.one [(o, .num x)])) = _ := Eq.trans (chance_congr ?_) hc
  · rw [e1]
    congr 1
    by_cases hx : ∃ i : Nat, i < c.k ∧ x = i
    · obtain ⟨i, hi, rfl⟩ := hx
      have h1 : (0 : ℝ) < c.alpha + c.cnt i := by
        have : (0 : ℝ) ≤ c.cnt i := by simp
        linarith [hL.1]
      rw [if_pos ((List.mem_map_of_injective hinj).2 (List.mem_range.2 hi)),
        Categorical.logpdf_num hI hL ho hr hi, prob_fin, Crp.exp_log_sub h1 hd]
      have hidx : ((List.range c.k).map fun i : Nat => (i : ℚ)).idxOf (i : ℚ) = i := by
        rw [idxOf_map_inj hinj]
        have hl : i < (List.range c.k).length := by simpa using hi
        have := List.nodup_range.idxOf_getElem i hl
        simpa using this
      rw [hidx, List.getD_eq_getElem?_getD, List.getElem?_map, List.getElem?_range hi]
      simp
    · rw [if_neg, Categorical.logpdf_illegal ho hr hx, prob_ninf]
      intro h
      obtain ⟨i, hi, rfl⟩ := List.mem_map.1 h
      exact hx ⟨i, List.mem_range.1 hi, rfl⟩
  · intro u _
    rw [Categorical.simulate, simulateMany_none, Categorical.simulate1_free ho hfree,
      Categorical.simulateWeights_eq hI]
    obtain ⟨i, rng', h1, h2, -⟩ := pflipIdx_ok
      ((List.range c.k).map fun i => c.alpha + (c.cnt i : ℝ))
      (by have := hL.2; simp; omega)
      (by rw [← Categorical.simulateWeights_eq hI]; exact Categorical.simulateWeights_nonneg hI hL)
      (by rw [Categorical.sum_alpha_cnt hI]; exact hd) (withUniform u rng)
    rw [h1]
    have hi : i < c.k := by simpa using h2
    simp [List.getElem?_range hi]

/-- Bernoulli: the same, for every number `x`. -/
theorem C17_bernoulli {c : Bernoulli} (h : LegallyReachable (.bernoulli c)) {o : Var}
    (ho : c.outputs = [o]) {r : RowId} (hr : r ∉ Dict.keys c.data) (rng : Rng) (x : ℚ) :
    chance (fun u => (c.simulate r [o] [] [] none (withUniform u rng)).1
        = .ok (.one [(o, .num x)]))
      = ENNReal.ofReal (prob (c.logpdf r [(o, .num x)] [] [])) := by
  have hI : c.Inv := h.inv
  have hL := h.legal
  have hw := Bernoulli.weight_pos hL
  have hd := add_pos (hw false) (hw true)
  have hfree : ∀ q, Dict.get? c.data r ≠ some (.num q) := by
    rw [(Dict.get?_eq_none_iff _ _).2 hr]; simp
  have hc := chance_choice [0, 1] (by simp) (c.logWeights.map Fl.exp)
    (by simp [Bernoulli.logWeights])
    (by intro p hp; obtain ⟨x, _, rfl⟩ := List.mem_map.1 hp; exact exp_nonneg x)
    (by rw [Bernoulli.logWeights_sum hL]; norm_num) rng x
  rw [Bernoulli.logWeights_sum hL, div_one, Bernoulli.logWeights_exp hL] at hc
  have e1 : chance (fun u => (c.simulate r [o] [] [] none (withUniform u rng)).1
        = .ok (.one [(o, .num x)])) = _ := Eq.trans (chance_congr ?_) hc
  · rw [e1]
    congr 1
    by_cases hx : x = 0 ∨ x = 1
    · rw [if_pos (by simpa using hx), Bernoulli.logpdf_num hI hL ho hr hx, prob_fin,
        Crp.exp_log_sub (hw _) hd]
      rcases hx with rfl | rfl
      · simp
      · simp
    · rw [if_neg (by simpa using hx), Bernoulli.logpdf_illegal ho hr hx, prob_ninf]
  · intro u _
    rw [Bernoulli.simulate, simulateMany_none, Bernoulli.simulate1_free hI hL ho hfree,
      logPflipIdx_eq _ (Bernoulli.logWeights_isLogP c), Bernoulli.logWeights_exp hL]
    obtain ⟨i, rng', h1, h2, -⟩ := pflipIdx_ok
      [c.weight false / (c.weight false + c.weight true),
        c.weight true / (c.weight false + c.weight true)]
      (by simp)
      (by intro p hp
          simp only [List.mem_cons, List.not_mem_nil, or_false] at hp
          rcases hp with rfl | rfl <;> exact (div_pos (hw _) hd).le)
      (by simp only [List.sum_cons, List.sum_nil, add_zero]
          exact add_pos (div_pos (hw _) hd) (div_pos (hw _) hd)) (withUniform u rng)
    rw [h1]
    have hi : i = 0 ∨ i = 1 := by simp at h2; omega
    rcases hi with rfl | rfl <;> simp

example : LegallyReachable (.crp Concrete.crp3') ∧ none ∉ Dict.keys Concrete.crp3'.data :=
  ⟨Concrete.crp3_eq ▸ Concrete.crp3_legally, by simp [Concrete.crp3', Dict.keys]⟩

end Cgpm2.Props
