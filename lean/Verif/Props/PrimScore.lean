import Verif.Lemmas.PrimExch
import Verif.Lemmas.PrimSim
import Verif.Lemmas.Concrete
import Verif.Spec.Prob
import Verif.Spec.Sequence

/-!
# Properties C12 to C17: scores, predictive probabilities and missing values of primitives
-/

set_option linter.unusedSimpArgs false

namespace Cgpm2.Props
open Spec

/-! ## C12: the score grows by the predictive log-probability -/

/-- For an unheld row and an accepted number, `logpdf` is a finite number `x`, `observe` succeeds,
and `logpdf_score` grows by exactly `x`. -/
theorem C12_chain_rule {p : Prim} (h : LegallyReachable p) {o : Var} (ho : p.outputs = [o])
    {r : RowId} (hr : Dict.get? p.data r = none) {q : ℚ} (hq : Accepts p (.num q)) :
    ∃ a x : ℝ, p.logpdfScore = .ok (.fin a) ∧ p.logpdf r [(o, .num q)] [] [] = .ok (.fin x) ∧
      (p.observe r [(o, .num q)] []).1 = .ok () ∧
      (p.observe r [(o, .num q)] []).2.logpdfScore = .ok (.fin (a + x)) := by
  have hI := h.inv
  have hL := h.legal
  rw [Dict.get?_eq_none_iff] at hr
  have hl := (Prim.legal_iff hI (.num q)).2 hq
  obtain ⟨x, hx, hs⟩ := Prim.pred_legal hI hL hr hl
  refine ⟨p.score, x, Prim.logpdfScore_eq hI hL, ?_, ?_, ?_⟩
  · rw [Prim.logpdf_num hI hL ho hr, hx]
  · rw [Prim.observe_ok ho hr hl]
  · rw [Prim.observe_ok ho hr hl]
    rw [Prim.logpdfScore_eq (Prim.inv_add hI hr hl) ((Prim.legalHypers_add p r _).2 hL), hs]

example : ∃ p : Prim, LegallyReachable p ∧ p.outputs = [5] ∧ Dict.get? p.data (some 9) = none ∧
    Accepts p (.num 2) ∧ p.data.length = 3 := by
  have h2 : truncate 2 = 2 := by have := truncate_intCast 2; simpa using this
  refine ⟨_, Concrete.crp3_legally, ?_⟩
  rw [Concrete.crp3_eq]
  simp [Prim.outputs, Prim.data, Concrete.crp3', Dict.get?, Accepts, NextTable, h2]

/-! ## C13: the score is the sequential predictive probability -/

/-- A primitive as the constructor returns it has score 0. -/
theorem C13_fresh {p : Prim} (h : Created p) (hL : LegalHypers p) :
    p.logpdfScore = .ok (.fin 0) := by
  rw [Prim.logpdfScore_eq (Prim.inv_created h) hL]
  congr 2
  cases h with
  | crp o i hy pa => simp [Prim.score, Crp.score, Crp.init, Dict.values]
  | categorical o i hy pa k =>
    simp [Prim.score, Categorical.score, Categorical.init, Categorical.cnt, valuesOf, Dict.values]
  | bernoulli o i hy pa =>
    simp [Prim.score, Bernoulli.score, Bernoulli.init, Bernoulli.ones, Bernoulli.zeros, valuesOf,
      Dict.values]
  | normal h =>
    have hd : ∀ {o i hy pa s}, Normal.init [o] i hy pa = .ok s → s.data = [] := by
      intro o i hy pa s hs
      simp only [Normal.init] at hs
      split at hs
      · cases hs; rfl
      · cases hs
    have := hd h
    simp [Prim.score, Normal.score, Normal.xs, this, valuesOf, Dict.values,
      Normal.logZPost_nil _ _ _ _ hL.1]
  | normalUC h =>
    have hd : ∀ {o i hy pa s}, NormalUC.init [o] i hy pa = .ok s → s.data = [] := by
      intro o i hy pa s hs
      simp only [NormalUC.init] at hs
      split at hs
      · cases hs; rfl
      · cases hs
    have := hd h
    simp [Prim.score, NormalUC.score, NormalUC.xs, this, valuesOf, Dict.values]
  | poisson h =>
    have hd : ∀ {o i hy pa s}, Poisson.init [o] i hy pa = .ok s →
        s.N = 0 ∧ s.sumX = 0 ∧ s.sumLogFactX = 0 := by
      intro o i hy pa s hs
      simp only [Poisson.init] at hs
      split at hs
      · cases hs; exact ⟨rfl, rfl, rfl⟩
      · cases hs
    obtain ⟨h1, h2, h3⟩ := hd h
    simp [Prim.score, Poisson.score, h1, h2, h3]

theorem sequence_score {o : Var} (rows : List (RowId × ℚ)) : ∀ {p : Prim}, p.Inv → LegalHypers p →
    p.outputs = [o] → AllAccepted o p rows →
    ∃ xs : List ℝ, logpdfsInTurn o p rows = xs.map (fun x => .ok (.fin x)) ∧
      (observeAll o p rows).Inv ∧ LegalHypers (observeAll o p rows) ∧
      (observeAll o p rows).score = p.score + xs.sum := by
  induction rows with
  | nil => intro p hI hL _ _; exact ⟨[], rfl, hI, hL, by simp [observeAll]⟩
  | cons row rows ih =>
    obtain ⟨r, q⟩ := row
    intro p hI hL ho ⟨h1, h2⟩
    rcases Prim.observe_cases ho r [(o, .num q)] [] with ⟨e, he⟩ | ⟨v, e1, _, hr, hl, h5⟩
    · rw [he] at h1; cases h1
    · obtain rfl : Val.num q = v := by simpa using e1
      rw [h5] at h2
      obtain ⟨x, hx, hs⟩ := Prim.pred_legal hI hL hr hl
      obtain ⟨xs, k1, k2, k3, k4⟩ := ih (Prim.inv_add hI hr hl)
        ((Prim.legalHypers_add p r _).2 hL) (by rw [Prim.outputs_add, ho]) h2
      refine ⟨x :: xs, ?_, ?_, ?_, ?_⟩
      · simp only [logpdfsInTurn, h5, k1, List.map_cons, Prim.logpdf_num hI hL ho hr, hx]
      · simpa only [observeAll, h5] using k2
      · simpa only [observeAll, h5] using k3
      · simp only [observeAll, h5, k4, hs, List.sum_cons]; ring

/-- After observing any list of rows that a fresh primitive accepts in that order, the score is
the sum of the log-probabilities the rows had just before they were observed, all finite. -/
theorem C13_sequence {p : Prim} (h : Created p) (hL : LegalHypers p) {o : Var}
    (ho : p.outputs = [o]) (rows : List (RowId × ℚ)) (ha : AllAccepted o p rows) :
    ∃ xs : List ℝ, logpdfsInTurn o p rows = xs.map (fun x => .ok (.fin x)) ∧
      (observeAll o p rows).logpdfScore = .ok (.fin xs.sum) := by
  obtain ⟨xs, h1, h2, h3, h4⟩ := sequence_score rows (Prim.inv_created h) hL ho ha
  refine ⟨xs, h1, ?_⟩
  rw [Prim.logpdfScore_eq h2 h3, h4]
  have := C13_fresh h hL
  rw [Prim.logpdfScore_eq (Prim.inv_created h) hL] at this
  have : p.score = 0 := by simpa using this
  rw [this, zero_add]

example : AllAccepted 3 (.normal Concrete.norm0) [(some 4, 5/2), (some 1, -1)] := by
  simp [AllAccepted, Prim.observe, Py.wrap, Concrete.norm0, Normal.observe_ok, Normal.add,
    Dict.set, Dict.keys]

/-! ## C14: exchangeability -/

/-- Two objects of one class with the same output and hyperparameters, whose held numbers are the
same up to order (row ids and missing values may differ), have the same score and give the same
answer to every `logpdf` call about a row that neither holds. -/
theorem C14_exchangeable {p p' : Prim} (h : LegallyReachable p) (h' : LegallyReachable p')
    (hm : SameModel p p') (hp : (held p).Perm (held p')) :
    p.logpdfScore = p'.logpdfScore ∧
    ∀ r, Dict.get? p.data r = none → Dict.get? p'.data r = none →
      ∀ t c i, p.logpdf r t c i = p'.logpdf r t c i := by
  have := Prim.congr h.inv h'.inv h.legal hm hp
  refine ⟨this.1, fun r h1 h2 => this.2 r ?_ ?_⟩
  · exact (Dict.get?_eq_none_iff _ _).1 h1
  · exact (Dict.get?_eq_none_iff _ _).1 h2

/-- Two different histories with the same values: 5/2, missing, -1 and -1, 5/2. -/
example : ∃ p p' : Prim, LegallyReachable p ∧ LegallyReachable p' ∧ SameModel p p' ∧
    (held p).Perm (held p') ∧ p ≠ p' := by
  refine ⟨Concrete.norm3, run (.normal Concrete.norm0)
    [.observe (some 7) [(3, .num (-1))] [], .observe (some 5) [(3, .num (5/2))] []],
    Concrete.norm3_legally, ⟨_, _, .normal Concrete.norm0_created, ?_, rfl⟩, ?_, ?_, ?_⟩
  · simp [LegalHypers, Concrete.norm0]
  · simp [Concrete.norm3, run, step, Prim.observe, Py.wrap, Concrete.norm0, Normal.observe_ok,
      Normal.add, Dict.set, Dict.keys, SameModel]
  · simp only [Concrete.norm3, run, step, Prim.observe, Py.wrap, Concrete.norm0,
      Normal.observe_ok, Normal.add, Dict.set, Dict.keys, held, Prim.data, valuesOf, Dict.values,
      List.foldl, List.map, present]
    simp [Normal.observe_ok, Normal.add, Dict.set, Dict.keys, present]
    exact List.Perm.swap _ _ _
  · simp [Concrete.norm3, run, step, Prim.observe, Py.wrap, Concrete.norm0, Normal.observe_ok,
      Normal.add, Dict.set, Dict.keys]

/-! ## C15: missing values -/

/-- Observing a missing value, where accepted, succeeds and changes neither the score nor any
later answer of `logpdf` about another row. -/
theorem C15_observe_missing {p : Prim} (h : LegallyReachable p) {o : Var} (ho : p.outputs = [o])
    {r : RowId} (hr : Dict.get? p.data r = none) (ha : Accepts p .nan) :
    (p.observe r [(o, .nan)] []).1 = .ok () ∧
    (p.observe r [(o, .nan)] []).2.logpdfScore = p.logpdfScore ∧
    ∀ r', r' ≠ r → ∀ t c i,
      (p.observe r [(o, .nan)] []).2.logpdf r' t c i = p.logpdf r' t c i := by
  have hI := h.inv
  rw [Dict.get?_eq_none_iff] at hr
  have hl := (Prim.legal_iff hI .nan).2 ha
  rw [Prim.observe_ok ho hr hl]
  refine ⟨rfl, ?_, fun r' hne t c i => ?_⟩
  · rw [Prim.logpdfScore_eq (Prim.inv_add hI hr hl) ((Prim.legalHypers_add p r _).2 h.legal),
      Prim.logpdfScore_eq hI h.legal, Prim.score_add_nan hr hl]
  · have hh : ∀ d : Dict RowId Val, Dict.has (Dict.set d r .nan) r' = Dict.has d r' := by
      intro d; simp only [Dict.has, Dict.get?_set, if_neg hne.symm]
    cases p with
    | crp c => obtain ⟨q, hq, _⟩ := hl; cases hq
    | categorical c => simp only [Prim.add, Categorical.add, Prim.logpdf, Categorical.logpdf, hh]
    | bernoulli c => simp only [Prim.add, Bernoulli.add, Prim.logpdf, Bernoulli.logpdf, hh]
    | normal c => simp only [Prim.add, Normal.add, Prim.logpdf, Normal.logpdf, hh]
    | normalUC c => simp only [Prim.add, NormalUC.add, Prim.logpdf, NormalUC.logpdf, hh]
    | poisson c => simp only [Prim.add, Poisson.add, Prim.logpdf, Poisson.logpdf, hh]

example : Accepts Concrete.cat3 .nan ∧ Accepts Concrete.poi2 .nan := by
  constructor
  · simp [Concrete.cat3, run, step, Prim.observe, Py.wrap, Accepts]
  · simp [Concrete.poi2, run, step, Prim.observe, Py.wrap, Accepts]

/-- Full claim: `logpdf` of a missing value is 0 for every class that accepts missing values.
Proved: it holds for Categorical, Normal and NormalUC.  Missing: Bernoulli and Poisson, for which
it is false (`C15_violated_bernoulli`, `C15_violated_poisson`). -/
theorem C15_logpdf_missing_partial {p : Prim} (hk : p.kind = .categorical ∨ p.kind = .normal ∨
      p.kind = .normalUC) {o : Var} (ho : p.outputs = [o]) {r : RowId}
    (hr : Dict.get? p.data r = none) : p.logpdf r [(o, .nan)] [] [] = .ok (.fin 0) := by
  rw [Dict.get?_eq_none_iff] at hr
  cases p with
  | categorical c => exact Categorical.logpdf_nan ho hr
  | normal c => exact Normal.logpdf_nan ho hr
  | normalUC c => exact NormalUC.logpdf_nan ho hr
  | _ => simp [Prim.kind] at hk

example : Concrete.norm3.kind = .normal ∧ Concrete.norm3.outputs = [3] ∧
    Dict.get? Concrete.norm3.data (some 9) = none := by
  simp [Concrete.norm3, run, step, Prim.observe, Py.wrap, Concrete.norm0, Normal.observe_ok,
    Normal.add, Dict.set, Dict.keys, Prim.kind, Prim.outputs, Prim.data, Dict.get?]

/-- A Bernoulli gives a missing value, which it accepts in `observe`, probability 0: the claim
fails in every state, in particular in the reachable one holding 1 and a missing value. -/
theorem C15_violated_bernoulli :
    (∀ (c : Bernoulli) (o : Var) (r : RowId), c.outputs = [o] → Dict.get? c.data r = none →
      Accepts (.bernoulli c) .nan ∧ c.logpdf r [(o, .nan)] [] [] = .ok .ninf) ∧
    LegallyReachable Concrete.ber2 ∧ Concrete.ber2.logpdf (some 9) [(2, .nan)] [] [] = .ok .ninf := by
  have h1 : ∀ (c : Bernoulli) (o : Var) (r : RowId), c.outputs = [o] → Dict.get? c.data r = none →
      Accepts (.bernoulli c) .nan ∧ c.logpdf r [(o, .nan)] [] [] = .ok .ninf := by
    intro c o r ho hr
    exact ⟨trivial, Bernoulli.logpdf_nan ho ((Dict.get?_eq_none_iff _ _).1 hr)⟩
  refine ⟨h1, Concrete.ber2_legally, (h1 _ 2 (some 9) ?_ ?_).2⟩
  · simp [Bernoulli.init, Bernoulli.observe_ok, Bernoulli.add,
      Dict.set, Dict.keys, Bernoulli.Legal]
  · simp [Bernoulli.init, Bernoulli.observe_ok, Bernoulli.add,
      Dict.set, Dict.keys, Dict.get?, Bernoulli.Legal]

/-- The same for a Poisson. -/
theorem C15_violated_poisson :
    (∀ (c : Poisson) (o : Var) (r : RowId), c.outputs = [o] → Dict.get? c.data r = none →
      Accepts (.poisson c) .nan ∧ c.logpdf r [(o, .nan)] [] [] = .ok .ninf) ∧
    LegallyReachable Concrete.poi2 ∧ Concrete.poi2.logpdf (some 9) [(4, .nan)] [] [] = .ok .ninf := by
  have h1 : ∀ (c : Poisson) (o : Var) (r : RowId), c.outputs = [o] → Dict.get? c.data r = none →
      Accepts (.poisson c) .nan ∧ c.logpdf r [(o, .nan)] [] [] = .ok .ninf := by
    intro c o r ho hr
    exact ⟨trivial, Poisson.logpdf_nan ho ((Dict.get?_eq_none_iff _ _).1 hr)⟩
  refine ⟨h1, Concrete.poi2_legally, (h1 _ 4 (some 9) ?_ ?_).2⟩
  · have : Poisson.Legal (.num 3) := ⟨3, by norm_num⟩
    simp [Concrete.poi0, Poisson.observe_ok, Poisson.add, this,
      Dict.set, Dict.keys, Poisson.Legal]
  · have : Poisson.Legal (.num 3) := ⟨3, by norm_num⟩
    simp [Concrete.poi0, Poisson.observe_ok, Poisson.add, this,
      Dict.set, Dict.keys, Dict.get?, Poisson.Legal]

/-! ## C16: queries return numbers -/

/-- The score is a finite number. -/
theorem C16_score {p : Prim} (h : LegallyReachable p) : Finite p.logpdfScore :=
  ⟨_, Prim.logpdfScore_eq h.inv h.legal⟩

/-- `logpdf` of any number for a row not held (e.g. `None`) is finite for accepted values and
`-inf` for all others. -/
theorem C16_logpdf {p : Prim} (h : LegallyReachable p) {o : Var} (ho : p.outputs = [o])
    {r : RowId} (hr : Dict.get? p.data r = none) (q : ℚ) :
    (Accepts p (.num q) → Finite (p.logpdf r [(o, .num q)] [] [])) ∧
    (¬ Accepts p (.num q) → p.logpdf r [(o, .num q)] [] [] = .ok .ninf) := by
  have hI := h.inv
  rw [Dict.get?_eq_none_iff] at hr
  rw [← Prim.legal_iff hI, Prim.logpdf_num hI h.legal ho hr]
  refine ⟨fun hl => ?_, fun hl => ?_⟩
  · obtain ⟨x, hx, _⟩ := Prim.pred_legal hI h.legal hr hl
    exact ⟨x, by rw [hx]⟩
  · rw [Prim.pred_illegal hl]

/-- A missing value is rejected by a CRP with ValueError; the other classes return a number. -/
theorem C16_logpdf_missing {p : Prim} {o : Var} (ho : p.outputs = [o])
    {r : RowId} (hr : Dict.get? p.data r = none) :
    (p.kind = .crp → p.logpdf r [(o, .nan)] [] [] = .error .valueError) ∧
    (p.kind ≠ .crp → p.logpdf r [(o, .nan)] [] [] = .ok (.fin 0) ∨
      p.logpdf r [(o, .nan)] [] [] = .ok .ninf) := by
  rw [Dict.get?_eq_none_iff] at hr
  cases p with
  | crp c => exact ⟨fun _ => Crp.logpdf_nan r ho, fun h => absurd rfl h⟩
  | categorical c => exact ⟨nofun, fun _ => .inl (Categorical.logpdf_nan ho hr)⟩
  | bernoulli c => exact ⟨nofun, fun _ => .inr (Bernoulli.logpdf_nan ho hr)⟩
  | normal c => exact ⟨nofun, fun _ => .inl (Normal.logpdf_nan ho hr)⟩
  | normalUC c => exact ⟨nofun, fun _ => .inl (NormalUC.logpdf_nan ho hr)⟩
  | poisson c => exact ⟨nofun, fun _ => .inr (Poisson.logpdf_nan ho hr)⟩

example : LegallyReachable Concrete.poi2 ∧ LegallyReachable Concrete.crp3 ∧
    ¬ Accepts Concrete.crp3 (.num 3) := by
  have h3 : truncate 3 = 3 := by have := truncate_intCast 3; simpa using this
  refine ⟨Concrete.poi2_legally, Concrete.crp3_legally, ?_⟩
  rw [Concrete.crp3_eq]
  simp [Accepts, Concrete.crp3', NextTable, h3]

/-! ## C17: rows that are held -/

/-- For a row holding a number, `simulate` (of one sample) returns that number, whatever the
random state, and draws nothing. -/
theorem C17_held {p : Prim} {o : Var} (ho : p.outputs = [o]) {r : RowId} {q : ℚ}
    (hr : Dict.get? p.data r = some (.num q)) (rng : Rng) :
    p.simulate r [o] [] [] none rng = (.ok (.one [(o, .num q)]), rng) := by
  cases p with
  | crp c =>
    rw [Prim.data, Prim.get?_map_data] at hr
    obtain ⟨t, ht, hq⟩ := Option.map_eq_some_iff.1 hr
    obtain rfl : (t : ℚ) = q := by simpa using hq
    simp only [Prim.simulate, Crp.simulate, simulateMany_none, Crp.simulate1_held ho ht]
  | categorical c =>
    simp only [Prim.simulate, Categorical.simulate, simulateMany_none,
      Categorical.simulate1_held ho hr]
  | bernoulli c =>
    simp only [Prim.simulate, Bernoulli.simulate, simulateMany_none,
      Bernoulli.simulate1_held ho hr]
  | normal c =>
    have hr : Dict.get? c.data r = some (.num q) := hr
    have ho : c.outputs = [o] := ho
    simp [Prim.simulate, Normal.simulate, simulateMany_none, Normal.simulate1, ho,
      simulateGuard_ok, hr, firstOutput, Py.bind_apply]
  | normalUC c =>
    have hr : Dict.get? c.data r = some (.num q) := hr
    have ho : c.outputs = [o] := ho
    simp [Prim.simulate, NormalUC.simulate, ho,
      simulateGuard_ok, hr, firstOutput, Py.bind_apply]
  | poisson c =>
    have hr : Dict.get? c.data r = some (.num q) := hr
    have ho : c.outputs = [o] := ho
    simp [Prim.simulate, Poisson.simulate, simulateMany_none, Poisson.simulate1, ho,
      simulateGuard_ok, hr, firstOutput, Py.bind_apply]

example : Dict.get? Concrete.crp3.data (some 2) = some (.num 1) := by
  rw [Concrete.crp3_eq]; simp [Prim.data, Concrete.crp3', Dict.get?]

end Cgpm2.Props
