import Verif.Lemmas.Concrete

/-!
# C01-C04, C06 (support), C18: primitives as tables

Vocabulary: `Spec.Reachable` (any constructor call, then any calls, raising or not),
`Spec.present` (the non-missing values), `Spec.Accepts`, `Spec.keptAs`, `Spec.HypersOk`.
-/

namespace Cgpm2.Props
open Spec

/-! ## C01: sufficient statistics describe exactly the held rows -/

/-- CRP: the row count is the number of rows; the table counts are, per occupied table, the
number of rows at it, never zero; `get_suffstats` lists exactly these sizes. -/
theorem C01_crp {c : Crp} (h : Reachable (.crp c)) :
    c.getSuffstats.1 = c.data.length ∧
    (∀ t n, Dict.get? c.counts t = some n ↔
      n = ((c.data.map Prod.snd).count t : Int) ∧ 0 < n) ∧
    c.getSuffstats.2.Perm
      ((c.data.map Prod.snd).dedup.map fun t => ((c.data.map Prod.snd).count t : Int)) := by
  have hI : c.Inv := h.inv
  refine ⟨hI.N, ?_, ?_⟩
  · intro t n
    have := hI.counts t
    change Dict.get? c.counts t = if (c.data.map Prod.snd).count t = 0 then none
      else some ((c.data.map Prod.snd).count t : Int) at this
    rw [this]
    by_cases h0 : (c.data.map Prod.snd).count t = 0
    · simp [h0]; omega
    · simp [h0]; constructor
      · rintro rfl; exact ⟨rfl, by omega⟩
      · exact fun h => h.1.symm
  · have hp := (Crp.tables_perm_dedup hI).map fun t => ((c.data.map Prod.snd).count t : Int)
    refine List.Perm.trans (List.Perm.of_eq ?_) hp
    unfold Crp.getSuffstats Dict.values Dict.keys
    simp only [List.map_map]
    apply List.map_congr_left
    rintro ⟨t, n⟩ hm
    have h1 := Dict.get?_of_mem hI.nodupC hm
    rw [hI.counts] at h1
    change (if (c.data.map Prod.snd).count t = 0 then none
      else some ((c.data.map Prod.snd).count t : Int)) = some n at h1
    split at h1
    · cases h1
    · simpa using h1.symm

example : Reachable Concrete.crp3 := Concrete.crp3_legally.reachable

/-- Categorical: N counts the non-missing rows, and entry `i` of the counts the rows equal to
`i`, for every category `i`. -/
theorem C01_categorical {c : Categorical} (h : Reachable (.categorical c)) :
    c.getSuffstats.1 = (present (valuesOf c.data)).length ∧
    c.getSuffstats.2.length = c.k ∧
    ∀ i < c.k, c.getSuffstats.2[i]? = some ((present (valuesOf c.data)).count (i : ℚ) : Int) := by
  have hI : c.Inv := h.inv
  refine ⟨hI.N, hI.len, fun i hi => ?_⟩
  have h1 := hI.counts i hi
  have hl : i < c.counts.length := by rw [hI.len]; exact hi
  rw [List.getD_eq_getElem?_getD, List.getElem?_eq_getElem hl] at h1
  simp only [Categorical.getSuffstats, List.getElem?_eq_getElem hl]
  simpa using h1

example : Reachable Concrete.cat3 := Concrete.cat3_legally.reachable

/-- Bernoulli: N counts the non-missing rows, x_sum the ones. -/
theorem C01_bernoulli {c : Bernoulli} (h : Reachable (.bernoulli c)) :
    c.getSuffstats = (((present (valuesOf c.data)).length : Int),
      ((present (valuesOf c.data)).count 1 : Int)) := by
  have hI : c.Inv := h.inv
  rw [Bernoulli.getSuffstats, hI.N, hI.xSum]

example : Reachable Concrete.ber2 := Concrete.ber2_legally.reachable

/-- Normal: count, sum and sum of squares of the non-missing rows. -/
theorem C01_normal {c : Normal} (h : Reachable (.normal c)) :
    c.getSuffstats = (((present (valuesOf c.data)).length : Int),
      (present (valuesOf c.data)).sum,
      ((present (valuesOf c.data)).map fun q => q * q).sum) := by
  have hI : c.Inv := h.inv
  rw [Normal.getSuffstats, hI.N, hI.sumX, hI.sumXSq]

example : Reachable Concrete.norm3 := Concrete.norm3_legally.reachable

/-- NormalUC: the statistics used by `logpdf_score`. -/
theorem C01_normalUC {c : NormalUC} (h : Reachable (.normalUC c)) :
    c.N = (present (valuesOf c.data)).length ∧
    c.sumX = (present (valuesOf c.data)).sum ∧
    c.sumXSq = ((present (valuesOf c.data)).map fun q => q * q).sum := by
  have hI : c.Inv := h.inv
  exact ⟨hI.N, hI.sumX, hI.sumXSq⟩

example : Reachable Concrete.normUC2 := Concrete.normUC2_legally.reachable

/-- Poisson: count, sum and sum of log factorials of the non-missing rows. -/
theorem C01_poisson {c : Poisson} (h : Reachable (.poisson c)) :
    c.getSuffstats = (((present (valuesOf c.data)).length : Int),
      (present (valuesOf c.data)).sum,
      ((present (valuesOf c.data)).map fun q : ℚ =>
        Real.log (Real.Gamma ((q : ℝ) + 1))).sum) := by
  have hI : c.Inv := h.inv
  rw [Poisson.getSuffstats, hI.N, hI.sumX, hI.sumLogFactX]
  rfl

example : Reachable Concrete.poi2 := Concrete.poi2_legally.reachable

/-! ## C02: a primitive is a partial map from row ids to values -/

/-- `observe` succeeds exactly for a new row and an accepted value of its only variable (and no
inputs); then the row holds the value and no other row changes. -/
theorem C02_observe {p : Prim} (h : Reachable p) (r : RowId) (obs inp : Dict Var Val) :
    ((p.observe r obs inp).1 = .ok () ↔
      ∃ o v, p.outputs = [o] ∧ obs = [(o, v)] ∧ inp = [] ∧ Dict.get? p.data r = none ∧
        Accepts p v) ∧
    ∀ o v, obs = [(o, v)] → (p.observe r obs inp).1 = .ok () →
      ∀ r', Dict.get? (p.observe r obs inp).2.data r' =
        if r' = r then some (keptAs p v) else Dict.get? p.data r' := by
  have hI := h.inv
  obtain ⟨o, ho⟩ := hI.out
  rcases Prim.observe_cases ho r obs inp with ⟨e, he⟩ | ⟨v, h1, h2, h3, h4, h5⟩
  · refine ⟨⟨fun hk => ?_, ?_⟩, fun o' v _ hk => ?_⟩
    · rw [he] at hk; cases hk
    · rintro ⟨o', v, ho', rfl, rfl, hn, ha⟩
      rw [ho] at ho'; obtain rfl : o = o' := by simpa using ho'
      rw [Dict.get?_eq_none_iff] at hn
      rw [Prim.observe_ok ho hn ((Prim.legal_iff hI v).2 ha)]
    · rw [he] at hk; cases hk
  · have hn : Dict.get? p.data r = none := (Dict.get?_eq_none_iff _ _).2 h3
    refine ⟨⟨fun _ => ⟨o, v, ho, h1, h2, hn, (Prim.legal_iff hI v).1 h4⟩, fun _ => by rw [h5]⟩, ?_⟩
    rintro o' v' hv' - r'
    rw [h1] at hv'
    obtain ⟨rfl, rfl⟩ : o = o' ∧ v = v' := by simpa using hv'
    rw [h5, Prim.data_add h4, Prim.stored_eq, Dict.get?_set]
    simp only [eq_comm]

example : Accepts Concrete.crp3 (.num 2) ∧ ¬ Accepts Concrete.crp3 (.num 3) := by
  rw [Concrete.crp3_eq]
  have h2 : truncate 2 = 2 := by have := truncate_intCast 2; simpa using this
  have h3 : truncate 3 = 3 := by have := truncate_intCast 3; simpa using this
  simp [Accepts, Concrete.crp3', NextTable, h2, h3]

/-- `unobserve` succeeds exactly for a held row, returns its value, and drops it and nothing
else. -/
theorem C02_unobserve {p : Prim} (h : Reachable p) (r : RowId) :
    ((∃ res, (p.unobserve r).1 = .ok res) ↔ ∃ v, Dict.get? p.data r = some v) ∧
    ∀ v, Dict.get? p.data r = some v →
      (∃ o, p.outputs = [o] ∧ (p.unobserve r).1 = .ok ([(o, v)], [])) ∧
      ∀ r', Dict.get? (p.unobserve r).2.data r' =
        if r' = r then none else Dict.get? p.data r' := by
  have hI := h.inv
  obtain ⟨o, ho⟩ := hI.out
  by_cases hr : r ∈ Dict.keys p.data
  · obtain ⟨v, hv⟩ := Dict.exists_get?_of_mem_keys hr
    have hu := Prim.unobserve_held hI ho hv
    refine ⟨⟨fun _ => ⟨v, hv⟩, fun _ => ⟨_, by rw [hu]⟩⟩, ?_⟩
    intro v' hv'
    obtain rfl : v = v' := by rw [hv] at hv'; simpa using hv'
    refine ⟨⟨o, ho, by rw [hu]⟩, fun r' => ?_⟩
    rw [hu, Prim.data_remove hv, Dict.get?_del _ hI.nodup]
    simp only [eq_comm]
  · have hn : Dict.get? p.data r = none := (Dict.get?_eq_none_iff _ _).2 hr
    have hu := Prim.unobserve_absent hr
    refine ⟨⟨?_, ?_⟩, ?_⟩
    · rintro ⟨res, hres⟩; rw [hu] at hres; cases hres
    · rintro ⟨v, hv⟩; rw [hn] at hv; cases hv
    · intro v hv; rw [hn] at hv; cases hv

example : Dict.get? Concrete.crp3.data (some 2) = some (.num 1) := by
  rw [Concrete.crp3_eq]; simp [Prim.data, Concrete.crp3', Dict.get?]

/-- `set_hypers`, `set_params` and a serialisation round trip never change a row. -/
theorem C02_other {p : Prim} (h : Reachable p) (hy : Dict String ℝ) :
    (p.setHypers hy).2.data = p.data ∧ (p.setParams hy).2.data = p.data ∧
    (step p .clone).data = p.data := by
  refine ⟨?_, ?_, ?_⟩
  · rcases Prim.setHypers_cases p hy with ⟨e, he⟩ | ⟨p', he, hd, _⟩ <;> rw [he]; exact hd
  · rcases Prim.setParams_cases p hy with ⟨e, he⟩ | ⟨p', he, hd, _⟩ <;> rw [he]; exact hd
  · simp only [step, Prim.clone_eq h.inv]; cases p <;> rfl

/-- Two rows never share an id. -/
theorem C02_keys_distinct {p : Prim} (h : Reachable p) : (p.data.map Prod.fst).Nodup :=
  h.inv.nodup

/-! ## C03: a rejected call changes nothing -/

theorem C03_observe {p : Prim} (h : Reachable p) (r : RowId) (obs inp : Dict Var Val) (e : Err)
    (he : (p.observe r obs inp).1 = .error e) : (p.observe r obs inp).2 = p := by
  obtain ⟨o, ho⟩ := h.inv.out
  rcases Prim.observe_cases ho r obs inp with ⟨e', h'⟩ | ⟨v, _, _, _, _, h'⟩
  · rw [h']
  · rw [h'] at he; cases he

theorem C03_unobserve {p : Prim} (h : Reachable p) (r : RowId) (e : Err)
    (he : (p.unobserve r).1 = .error e) : (p.unobserve r).2 = p := by
  obtain ⟨o, ho⟩ := h.inv.out
  by_cases hr : r ∈ Dict.keys p.data
  · obtain ⟨v, hv⟩ := Dict.exists_get?_of_mem_keys hr
    rw [Prim.unobserve_held h.inv ho hv] at he; cases he
  · rw [Prim.unobserve_absent hr]

theorem C03_setHypers (p : Prim) (hy : Dict String ℝ) (e : Err)
    (he : (p.setHypers hy).1 = .error e) : (p.setHypers hy).2 = p := by
  rcases Prim.setHypers_cases p hy with ⟨e', h'⟩ | ⟨p', h', _⟩
  · rw [h']
  · rw [h'] at he; cases he

theorem C03_setParams (p : Prim) (hy : Dict String ℝ) (e : Err)
    (he : (p.setParams hy).1 = .error e) : (p.setParams hy).2 = p := by
  rcases Prim.setParams_cases p hy with ⟨e', h'⟩ | ⟨p', h', _⟩
  · rw [h']
  · rw [h'] at he; cases he

/-- A call that is rejected: table 3 when tables 0 and 1 are occupied. -/
example : ∃ e, (Concrete.crp3.observe (some 9) [(5, .num 3)] []).1 = .error e := by
  have h3 : truncate 3 = 3 := by have := truncate_intCast 3; simpa using this
  have hr := Concrete.crp3_legally.reachable
  cases hx : (Concrete.crp3.observe (some 9) [(5, .num 3)] []).1 with
  | error e => exact ⟨e, rfl⟩
  | ok u =>
    obtain ⟨o, v, _, hv, _, _, ha⟩ := ((C02_observe hr (some 9) [(5, .num 3)] []).1).1 hx
    obtain ⟨rfl, rfl⟩ : 5 = o ∧ Val.num 3 = v := by simpa using hv
    rw [Concrete.crp3_eq] at ha
    simp [Accepts, Concrete.crp3', NextTable, h3] at ha

/-! ## C04: unobserve undoes observe exactly -/

/-- After a successful `observe`, `unobserve` returns the kept value and restores the object
with every attribute, including the order of its dictionaries. -/
theorem C04_unobserve_observe {p : Prim} (h : Reachable p) (r : RowId) (o : Var) (v : Val)
    (inp : Dict Var Val) (hok : (p.observe r [(o, v)] inp).1 = .ok ()) :
    (p.observe r [(o, v)] inp).2.unobserve r = (.ok ([(o, keptAs p v)], []), p) := by
  have hI := h.inv
  obtain ⟨o', ho⟩ := hI.out
  rcases Prim.observe_cases ho r [(o, v)] inp with ⟨e, he⟩ | ⟨v', h1, h2, h3, h4, h5⟩
  · rw [he] at hok; cases hok
  · obtain ⟨rfl, rfl⟩ : o = o' ∧ v = v' := by simpa using h1
    rw [h5]
    have hg : Dict.get? (p.add r v).data r = some (p.stored v) := by
      rw [Prim.data_add h4, Dict.get?_set]; simp
    simp only
    rw [Prim.unobserve_held (Prim.inv_add hI h3 h4) (by rw [Prim.outputs_add, ho]) hg,
      Prim.remove_add hI h3 h4, Prim.stored_eq]

/-- For every class but CRP, and for whole numbers on a CRP, the value comes back unchanged. -/
theorem C04_value_returned (p : Prim) (v : Val)
    (hv : ∀ c, p = .crp c → ∃ t : Int, v = .num (t : ℚ)) : keptAs p v = v := by
  cases p with
  | crp c =>
    obtain ⟨t, rfl⟩ := hv c rfl
    simp [keptAs, truncate_intCast]
  | _ => rfl

example : (Concrete.crp3.observe (some 9) [(5, .num 2)] []).1 = .ok () := by
  have h2 : truncate 2 = 2 := by have := truncate_intCast 2; simpa using this
  refine ((C02_observe Concrete.crp3_legally.reachable (some 9) [(5, .num 2)] []).1).2
    ⟨5, .num 2, ?_, rfl, rfl, ?_, ?_⟩ <;> rw [Concrete.crp3_eq]
  · rfl
  · simp [Prim.data, Concrete.crp3', Dict.get?]
  · simp [Accepts, Concrete.crp3', NextTable, h2]

/-! ## C18: set_hypers validates, get_hypers reads back -/

theorem C18_setHypers (p : Prim) (h : Dict String ℝ) :
    ((p.setHypers h).1 = .ok () ↔ HypersOk p.kind h) ∧
    (HypersOk p.kind h →
      (∀ n ∈ hyperNames p.kind, Dict.get? (p.setHypers h).2.getHypers n = Dict.get? h n) ∧
      (p.setHypers h).2.data = p.data ∧ (p.setHypers h).2.outputs = p.outputs) ∧
    (¬ HypersOk p.kind h → (p.setHypers h).2 = p) := by
  have key : ((p.setHypers h).1 = .ok () ↔ HypersOk p.kind h) ∧
      (HypersOk p.kind h →
        ∀ n ∈ hyperNames p.kind, Dict.get? (p.setHypers h).2.getHypers n = Dict.get? h n) := by
    cases p with
    | crp c =>
      rcases Crp.setHypers_cases c h with ⟨e, he⟩ | ⟨a, h1, ha, he⟩
      · have : ¬ HypersOk (Prim.crp c).kind h := by
          intro hk
          obtain ⟨x, hx, hp⟩ := hk "alpha" (by simp [hyperNames, Prim.kind])
          have hp := hp (by decide)
          have : Crp.setHypers h c = (.ok (), { c with alpha := x }) := by
            simp [Crp.setHypers, Py.bind_apply, Dict.getItem, hx, Py.assert_apply, hp]
          rw [he] at this; cases this
        refine ⟨⟨fun hk => ?_, fun hk => absurd hk this⟩, fun hk => absurd hk this⟩
        simp [Prim.setHypers, Py.wrap, he] at hk
      · simp [Prim.setHypers, Py.wrap, he, HypersOk, hyperNames, Prim.kind, h1, ha,
          Prim.getHypers, Crp.getHypers, Dict.get?]
    | categorical c =>
      rcases Categorical.setHypers_cases c h with ⟨e, he⟩ | ⟨a, h1, ha, he⟩
      · have : ¬ HypersOk (Prim.categorical c).kind h := by
          intro hk
          obtain ⟨x, hx, hp⟩ := hk "alpha" (by simp [hyperNames, Prim.kind])
          have hp := hp (by decide)
          have : Categorical.setHypers h c = (.ok (), { c with alpha := x }) := by
            simp [Categorical.setHypers, Py.bind_apply, Dict.getItem, hx, Py.assert_apply, hp]
          rw [he] at this; cases this
        refine ⟨⟨fun hk => ?_, fun hk => absurd hk this⟩, fun hk => absurd hk this⟩
        simp [Prim.setHypers, Py.wrap, he] at hk
      · simp [Prim.setHypers, Py.wrap, he, HypersOk, hyperNames, Prim.kind, h1, ha,
          Prim.getHypers, Categorical.getHypers, Dict.get?]
    | bernoulli c =>
      rcases Bernoulli.setHypers_cases c h with ⟨e, he⟩ | ⟨a, b, h1, h2, ha, hb, he⟩
      · have : ¬ HypersOk (Prim.bernoulli c).kind h := by
          intro hk
          obtain ⟨x, hx, hp⟩ := hk "alpha" (by simp [hyperNames, Prim.kind])
          obtain ⟨y, hy, hq⟩ := hk "beta" (by simp [hyperNames, Prim.kind])
          have hp := hp (by decide)
          have hq := hq (by decide)
          have : Bernoulli.setHypers h c = (.ok (), { c with alpha := x, beta := y }) := by
            simp [Bernoulli.setHypers, Py.bind_apply, Dict.getItem, hx, hy, Py.assert_apply, hp, hq]
          rw [he] at this; cases this
        refine ⟨⟨fun hk => ?_, fun hk => absurd hk this⟩, fun hk => absurd hk this⟩
        simp [Prim.setHypers, Py.wrap, he] at hk
      · simp [Prim.setHypers, Py.wrap, he, HypersOk, hyperNames, Prim.kind, h1, h2, ha, hb,
          Prim.getHypers, Bernoulli.getHypers, Dict.get?]
    | normal c =>
      rcases Normal.setHypers_cases c h with ⟨e, he⟩ | ⟨m, r, s, nu, h1, h2, h3, h4, hr, hs, hn, he⟩
      · have : ¬ HypersOk (Prim.normal c).kind h := by
          intro hk
          obtain ⟨m, hm, -⟩ := hk "m" (by simp [hyperNames, Prim.kind])
          obtain ⟨r, hr, hr'⟩ := hk "r" (by simp [hyperNames, Prim.kind])
          obtain ⟨s, hs, hs'⟩ := hk "s" (by simp [hyperNames, Prim.kind])
          obtain ⟨nu, hn, hn'⟩ := hk "nu" (by simp [hyperNames, Prim.kind])
          have hr' := hr' (by decide)
          have hs' := hs' (by decide)
          have hn' := hn' (by decide)
          have : Normal.setHypers h c = (.ok (), { c with m := m, r := r, s := s, nu := nu }) := by
            simp [Normal.setHypers, Py.bind_apply, Dict.getItem, hm, hr, hs, hn, Py.assert_apply,
              hr', hs', hn']
          rw [he] at this; cases this
        refine ⟨⟨fun hk => ?_, fun hk => absurd hk this⟩, fun hk => absurd hk this⟩
        simp [Prim.setHypers, Py.wrap, he] at hk
      · simp [Prim.setHypers, Py.wrap, he, HypersOk, hyperNames, Prim.kind, h1, h2, h3, h4, hr, hs,
          hn, Prim.getHypers, Normal.getHypers, Dict.get?]
    | normalUC c =>
      rcases NormalUC.setHypers_cases c h with ⟨e, he⟩ | ⟨m, r, s, nu, h1, h2, h3, h4, hr, hs, hn, he⟩
      · have : ¬ HypersOk (Prim.normalUC c).kind h := by
          intro hk
          obtain ⟨m, hm, -⟩ := hk "m" (by simp [hyperNames, Prim.kind])
          obtain ⟨r, hr, hr'⟩ := hk "r" (by simp [hyperNames, Prim.kind])
          obtain ⟨s, hs, hs'⟩ := hk "s" (by simp [hyperNames, Prim.kind])
          obtain ⟨nu, hn, hn'⟩ := hk "nu" (by simp [hyperNames, Prim.kind])
          have hr' := hr' (by decide)
          have hs' := hs' (by decide)
          have hn' := hn' (by decide)
          have : (NormalUC.setHypers h c).1 = .ok () := by
            simp [NormalUC.setHypers, Py.bind_apply, Dict.getItem, hm, hr, hs, hn, Py.assert_apply,
              hr', hs', hn']
          rw [he] at this; cases this
        refine ⟨⟨fun hk => ?_, fun hk => absurd hk this⟩, fun hk => absurd hk this⟩
        simp [Prim.setHypers, Py.wrap, he] at hk
      · simp [Prim.setHypers, Py.wrap, he, HypersOk, hyperNames, Prim.kind, h1, h2, h3, h4, hr, hs,
          hn, Prim.getHypers, NormalUC.getHypers, NormalUC.hypersAfter, Dict.get?_set]
    | poisson c =>
      rcases Poisson.setHypers_cases c h with ⟨e, he⟩ | ⟨a, b, h1, h2, ha, hb, he⟩
      · have : ¬ HypersOk (Prim.poisson c).kind h := by
          intro hk
          obtain ⟨x, hx, hp⟩ := hk "a" (by simp [hyperNames, Prim.kind])
          obtain ⟨y, hy, hq⟩ := hk "b" (by simp [hyperNames, Prim.kind])
          have hp := hp (by decide)
          have hq := hq (by decide)
          have : Poisson.setHypers h c = (.ok (), { c with a := x, b := y }) := by
            simp [Poisson.setHypers, Py.bind_apply, Dict.getItem, hx, hy, Py.assert_apply, hp, hq]
          rw [he] at this; cases this
        refine ⟨⟨fun hk => ?_, fun hk => absurd hk this⟩, fun hk => absurd hk this⟩
        simp [Prim.setHypers, Py.wrap, he] at hk
      · simp [Prim.setHypers, Py.wrap, he, HypersOk, hyperNames, Prim.kind, h1, h2, ha, hb,
          Prim.getHypers, Poisson.getHypers, Dict.get?]
  refine ⟨key.1, fun hk => ⟨key.2 hk, ?_⟩, fun hk => ?_⟩
  · rcases Prim.setHypers_cases p h with ⟨e, he⟩ | ⟨p', he, hd, ho, _⟩
    · have := key.1.2 hk; rw [he] at this; cases this
    · rw [he]; exact ⟨hd, ho⟩
  · rcases Prim.setHypers_cases p h with ⟨e, he⟩ | ⟨p', he, _⟩
    · rw [he]
    · exact absurd (key.1.1 (by rw [he])) hk

example : HypersOk .normal [("m", -3), ("r", 1), ("s", 2), ("nu", 1)] ∧
    ¬ HypersOk .normal [("m", -3), ("r", 1), ("s", -2), ("nu", 1)] := by
  constructor
  · intro n hn
    simp only [hyperNames, List.mem_cons, List.not_mem_nil, or_false] at hn
    rcases hn with rfl | rfl | rfl | rfl <;> simp [Dict.get?]
  · intro hk
    obtain ⟨x, hx, hp⟩ := hk "s" (by simp [hyperNames])
    have hx : (-2 : ℝ) = x := by simpa [Dict.get?] using hx
    have := hp (by decide)
    rw [← hx] at this; norm_num at this

end Cgpm2.Props
