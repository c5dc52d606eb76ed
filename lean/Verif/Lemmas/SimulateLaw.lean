import Verif.Lemmas.Randomness
import Verif.Lemmas.ProductSamples

/-!
# The law of one simulated row (helpers)
-/

namespace Cgpm2
open Spec MeasureTheory

variable {S : Type} {μ : Measure Draw} [IsProbabilityMeasure μ]

/-- The answer of a method and the stream after it. -/
def runs {α : Type} (m : Py (S × Rng) α) (s : S) (g : Rng) : Except Err α × Rng :=
  ((m (s, g)).1, (m (s, g)).2.2)

/-- `f` gives the targets their values under `a` with probability `p`, independently of the stream
after it, which has again the law of the stream. -/
def HasChance (μ : Measure Draw) [IsProbabilityMeasure μ] (f : Rng → Except Err SimOut × Rng)
    (t : List Var) (a : Var → Int) (p : ENNReal) : Prop :=
  ∀ B : Set Rng, MeasurableSet B → MeasurableSet {g | Hits t a (f g).1 ∧ (f g).2 ∈ B} ∧
    Pr μ {g | Hits t a (f g).1 ∧ (f g).2 ∈ B} = p * Pr μ B

theorem HasChance.congr {f f' : Rng → Except Err SimOut × Rng} {t t' : List Var} {a : Var → Int}
    {p : ENNReal} (h : HasChance μ f t a p)
    (he : ∀ g, (Hits t' a (f' g).1 ↔ Hits t a (f g).1) ∧ (f' g).2 = (f g).2) :
    HasChance μ f' t' a p := by
  intro B hB
  have : {g | Hits t' a (f' g).1 ∧ (f' g).2 ∈ B} = {g | Hits t a (f g).1 ∧ (f g).2 ∈ B} := by
    ext g
    simp only [Set.mem_ofPred_eq, (he g).1, (he g).2]
  rw [this]
  exact h B hB

/-- Something certain. -/
theorem HasChance.const {f : Rng → Except Err SimOut × Rng} {t : List Var} {a : Var → Int} {b : Prop}
    [Decidable b] (h : ∀ g, (Hits t a (f g).1 ↔ b) ∧ (f g).2 = g) :
    HasChance μ f t a (if b then 1 else 0) := by
  intro B hB
  by_cases hb : b
  · have : {g | Hits t a (f g).1 ∧ (f g).2 ∈ B} = B := by
      ext g
      simp only [Set.mem_ofPred_eq, (h g).1, (h g).2, hb, true_and]
    rw [this, if_pos hb, one_mul]
    exact ⟨hB, rfl⟩
  · have : {g | Hits t a (f g).1 ∧ (f g).2 ∈ B} = ∅ := by
      ext g
      simp only [Set.mem_ofPred_eq, (h g).1, hb, false_and]
      exact Iff.rfl
    rw [this, if_neg hb, zero_mul]
    exact ⟨.empty, measure_empty⟩

/-- A choice, and what follows it. -/
theorem choice_law (hμ : IsDraw μ) {ps : List ℝ} (hp : ∀ p ∈ ps, 0 ≤ p) (hs : 0 < ps.sum)
    {f : Nat → Rng → Except Err SimOut × Rng} {t : List Var} {a : Var → Int} {q : Nat → ENNReal}
    (h : ∀ i < ps.length, ps.getD i 0 ≠ 0 → HasChance μ (f i) t a (q i))
    {F : Rng → Except Err SimOut × Rng}
    (hF : ∀ g i g', pflipIdx ps g = (.ok i, g') → (Hits t a (F g).1 ↔ Hits t a (f i g').1) ∧
      (F g).2 = (f i g').2) :
    HasChance μ F t a (∑ i ∈ Finset.range ps.length, ENNReal.ofReal (ps.getD i 0 / ps.sum) * q i) := by
  classical
  intro B hB
  have hne : ps ≠ [] := by rintro rfl; simp at hs
  let Bi : Nat → Set Rng := fun i => {g | Hits t a (f i g).1 ∧ (f i g).2 ∈ B}
  let I := (Finset.range ps.length).filter fun i => ps.getD i 0 ≠ 0
  have hset : {g | Hits t a (F g).1 ∧ (F g).2 ∈ B} =
      ⋃ i ∈ I, {g | (pflipIdx ps g).1 = .ok i ∧ (pflipIdx ps g).2 ∈ Bi i} := by
    ext g
    obtain ⟨i, g', h1, h2, h3⟩ := pflipIdx_ok ps hne hp hs g
    obtain ⟨e1, e2⟩ := hF g i g' h1
    simp only [Set.mem_ofPred_eq, Set.mem_iUnion, e1, e2, h1, Except.ok.injEq, exists_prop, Bi, I,
      Finset.mem_filter, Finset.mem_range]
    constructor
    · rintro ⟨h4, h5⟩
      exact ⟨i, ⟨h2, h3.ne'⟩, rfl, h4, h5⟩
    · rintro ⟨j, -, rfl, h4, h5⟩
      exact ⟨h4, h5⟩
  have hlaw : ∀ i ∈ I, MeasurableSet {g | (pflipIdx ps g).1 = .ok i ∧ (pflipIdx ps g).2 ∈ Bi i} ∧
      Pr μ {g | (pflipIdx ps g).1 = .ok i ∧ (pflipIdx ps g).2 ∈ Bi i} =
        ENNReal.ofReal (ps.getD i 0 / ps.sum) * (q i * Pr μ B) := by
    intro i hi
    obtain ⟨h1, h2⟩ := Finset.mem_filter.1 hi
    have hi' := Finset.mem_range.1 h1
    obtain ⟨h3, h4⟩ := h i hi' h2 B hB
    obtain ⟨h5, h6⟩ := pflipIdx_law hμ ps hp hs i hi' h3
    exact ⟨h5, h6.trans (by rw [h4])⟩
  rw [hset]
  refine ⟨Finset.measurableSet_biUnion _ fun i hi => (hlaw i hi).1, ?_⟩
  rw [measure_biUnion_finset ?_ fun i hi => (hlaw i hi).1]
  · rw [Finset.sum_congr rfl fun i hi => (hlaw i hi).2, Finset.sum_filter, Finset.sum_mul]
    refine Finset.sum_congr rfl fun i _ => ?_
    split
    · rw [mul_assoc]
    · next h0 =>
      rw [not_not.1 h0]
      simp
  · intro i _ j _ hij
    refine Set.disjoint_left.2 fun g hi hj => hij ?_
    have := hi.1.symm.trans hj.1
    simpa using this

theorem sum_range_getD (l : List Int) (f : Int → ℝ) :
    ∑ i ∈ Finset.range l.length, f (l.getD i 0) = (l.map f).sum := by
  induction l with
  | nil => rfl
  | cons x l ih =>
    rw [List.length_cons, Finset.sum_range_succ', List.map_cons, List.sum_cons, ← ih, add_comm]
    rfl

/-! ## Primitives -/

theorem Hits_one {o : Var} {a : Var → Int} {k : Int} (out : SimOut)
    (ho : samplesOf out = [[(o, .num (k : ℚ))]]) : Hits [o] a (.ok out) ↔ k = a o := by
  constructor
  · rintro ⟨out', s, h1, h2, h3⟩
    cases h1
    rw [ho] at h2
    cases h2
    have := h3 o (by simp)
    simpa [Dict.get?] using this
  · rintro rfl
    refine ⟨out, _, rfl, ho, fun v hv => ?_⟩
    rw [List.mem_singleton.1 hv]
    simp [Dict.get?]

theorem prim_choice {p : Prim} (hd : Discrete p) (h : p.Good) {o : Var} (ho : p.outputs = [o]) {r : RowId}
    (hr : Dict.get? p.data r = none) : ∃ (supp : List Int) (ps : List ℝ),
      supp.Nodup ∧ ps.length = supp.length ∧ (∀ x ∈ ps, 0 ≤ x) ∧ 0 < ps.sum ∧
      (∀ i < supp.length, ENNReal.ofReal (ps.getD i 0 / ps.sum) =
        ENNReal.ofReal (p.pred (supp.getD i 0 : ℚ)).exp) ∧
      (∀ k : Int, k ∉ supp → p.pred (k : ℚ) = .ninf) ∧
      ∀ N : Option Nat, N = none ∨ N = some 1 → ∀ g i g', pflipIdx ps g = (.ok i, g') →
        ∃ out, p.simulate r [o] [] [] N g = (.ok out, g') ∧
          samplesOf out = [[(o, .num (supp.getD i 0 : ℚ))]] := by
  have hr' : r ∉ Dict.keys p.data := (Dict.get?_eq_none_iff _ _).1 hr
  have many : ∀ {one : Py Rng (Dict Var Val)} {s : Dict Var Val} {g g' : Rng} (N : Option Nat),
      N = none ∨ N = some 1 → one g = (.ok s, g') → ∃ out, simulateMany one N g = (.ok out, g') ∧
        samplesOf out = [s] := by
    rintro one s g g' N (rfl | rfl) h
    · refine ⟨.one s, ?_, rfl⟩
      rw [simulateMany_none, h]
    · refine ⟨.many [s], ?_, rfl⟩
      simp only [simulateMany, simulateMany.go, Py.bind_apply, h, Py.pure_apply]
  cases p with
  | crp c =>
    have hI : c.Inv := h.1
    have ha : 0 < c.alpha := h.2
    have hN := Crp.N_nonneg hI
    have hdp : (0 : ℝ) < (c.N : ℝ) + c.alpha := by linarith
    rw [Prim.data, Prim.keys_map_data] at hr'
    refine ⟨c.support, c.logWeights.map Fl.exp, Crp.support_nodup hI, by simp [Crp.logWeights], ?_, ?_,
      ?_, ?_, ?_⟩
    · intro p hp; obtain ⟨x, _, rfl⟩ := List.mem_map.1 hp; exact exp_nonneg x
    · rw [Crp.logWeights_sum hI ha]; norm_num
    · intro i hi
      rw [Crp.logWeights_sum hI ha, div_one, Crp.logWeights_exp hI ha]
      have hg : c.support.getD i 0 = c.support[i] := by
        rw [List.getD_eq_getElem?_getD, List.getElem?_eq_getElem hi, Option.getD_some]
      rw [hg]
      simp only [Prim.pred, truncate_intCast, if_pos (List.getElem_mem hi), Fl.exp,
        Crp.exp_log_sub (Crp.weight_pos ha _) hdp]
      simp [List.getD_eq_getElem?_getD, List.getElem?_eq_getElem hi]
    · intro k hk
      simp [Prim.pred, truncate_intCast, hk]
    · intro N hN g i g' hg
      refine many N hN ?_
      rw [Crp.simulate1_unheld hI ha ho hr', logPflipIdx_eq _ (Crp.logWeights_isLogP c), hg]
  | categorical c =>
    have hI : c.Inv := h.1
    have hL := h.2
    have hdp := Categorical.denom_pos hI hL
    have hfree : ∀ q, Dict.get? c.data r ≠ some (.num q) := by
      intro q h0
      rw [Prim.data, h0] at hr
      simp at hr
    refine ⟨(List.range c.k).map fun i : Nat => (i : Int), c.simulateWeights,
      List.Nodup.map (fun a b h => by simpa using h) List.nodup_range,
      by rw [Categorical.simulateWeights_eq hI]; simp, Categorical.simulateWeights_nonneg hI hL,
      by rw [Categorical.simulateWeights_sum hI]; exact hdp, ?_, ?_, ?_⟩
    · intro i hi
      have hi' : i < c.k := by simpa using hi
      have hg : ((List.range c.k).map fun i : Nat => (i : Int)).getD i 0 = (i : Int) := by
        simp [List.getD_eq_getElem?_getD, hi']
      have h1 : (0 : ℝ) < c.alpha + c.cnt i := by
        have : (0 : ℝ) ≤ c.cnt i := by simp
        linarith [hL.1]
      have hx : (((i : Nat) : Int) : ℚ) = ((i : Nat) : ℚ) := by simp
      have hlp := Prim.logpdf_num (p := .categorical c) hI hL ho hr' (i : ℚ)
      have hlp' := Categorical.logpdf_num hI hL ho hr' hi'
      rw [hg, hx, Except.ok.inj (hlp.symm.trans hlp'), Fl.exp, Crp.exp_log_sub h1 hdp,
        Categorical.simulateWeights_sum hI, Categorical.simulateWeights_eq hI]
      simp [List.getD_eq_getElem?_getD, hi']
    · intro k hk
      have : ¬ ∃ i : Nat, i < c.k ∧ (k : ℚ) = i := by
        rintro ⟨i, hi, hki⟩
        exact hk (List.mem_map.2 ⟨i, List.mem_range.2 hi, by exact_mod_cast hki.symm⟩)
      simp [Prim.pred, this]
    · intro N hN g i g' hg
      refine many N hN ?_
      obtain ⟨j, g'', h1, h2, -⟩ := pflipIdx_ok c.simulateWeights
        (by intro h0; have := Categorical.simulateWeights_sum hI; rw [h0] at this; simp at this; linarith)
        (Categorical.simulateWeights_nonneg hI hL)
        (by rw [Categorical.simulateWeights_sum hI]; exact hdp) g
      rw [hg] at h1
      cases h1
      have hi' : i < c.k := by
        rw [Categorical.simulateWeights_eq hI] at h2
        simpa using h2
      rw [Categorical.simulate1_free ho hfree, hg]
      simp [List.getD_eq_getElem?_getD, hi']
  | bernoulli c =>
    have hI : c.Inv := h.1
    have hL := h.2
    have hw := Bernoulli.weight_pos hL
    have hdp := add_pos (hw false) (hw true)
    have hfree : ∀ q, Dict.get? c.data r ≠ some (.num q) := by
      intro q h0
      rw [Prim.data, h0] at hr
      simp at hr
    refine ⟨[0, 1], c.logWeights.map Fl.exp, by decide, by simp [Bernoulli.logWeights], ?_, ?_, ?_, ?_, ?_⟩
    · intro p hp; obtain ⟨x, _, rfl⟩ := List.mem_map.1 hp; exact exp_nonneg x
    · rw [Bernoulli.logWeights_sum hL]; norm_num
    · intro i hi
      rw [Bernoulli.logWeights_sum hL, div_one, Bernoulli.logWeights_exp hL]
      have : i = 0 ∨ i = 1 := by simp at hi; omega
      rcases this with rfl | rfl
      · simp [Prim.pred, Fl.exp, Crp.exp_log_sub (hw _) hdp]
      · simp [Prim.pred, Fl.exp, Crp.exp_log_sub (hw _) hdp]
    · intro k hk
      have : ¬ ((k : ℚ) = 0 ∨ (k : ℚ) = 1) := by
        rintro (h | h)
        · have : k = 0 := by exact_mod_cast h
          simp [this] at hk
        · have : k = 1 := by exact_mod_cast h
          simp [this] at hk
      simp only [Prim.pred, if_neg this]
    · intro N hN g i g' hg
      refine many N hN ?_
      obtain ⟨j, g'', h1, h2, -⟩ := pflipIdx_ok (c.logWeights.map Fl.exp)
        (by simp [Bernoulli.logWeights])
        (by intro p hp; obtain ⟨x, _, rfl⟩ := List.mem_map.1 hp; exact exp_nonneg x)
        (by rw [Bernoulli.logWeights_sum hL]; norm_num) g
      rw [hg] at h1
      cases h1
      have : i = 0 ∨ i = 1 := by simp [Bernoulli.logWeights] at h2; omega
      rw [Bernoulli.simulate1_free hI hL ho hfree, logPflipIdx_eq _ (Bernoulli.logWeights_isLogP c), hg]
      rcases this with rfl | rfl <;> simp
  | normal c => simp [Discrete, Prim.kind] at hd
  | normalUC c => simp [Discrete, Prim.kind] at hd
  | poisson c => simp [Discrete, Prim.kind] at hd

theorem prim_law (hμ : IsDraw μ) {p : Prim} (hd : Discrete p) (h : p.Good) {o : Var} (ho : p.outputs = [o])
    {r : RowId} (hr : Dict.get? p.data r = none) {N : Option Nat} (hN : N = none ∨ N = some 1)
    (a : Var → Int) :
    HasChance μ (p.simulate r [o] [] [] N) [o] a (ENNReal.ofReal (p.pred (a o : ℚ)).exp) := by
  classical
  obtain ⟨supp, ps, h1, h2, h3, h4, h5, h6, h7⟩ := prim_choice hd h ho hr
  have hlaw := choice_law hμ (t := [o]) (a := a) h3 h4
    (f := fun i g => (.ok (.one [(o, .num (supp.getD i 0 : ℚ))]), g))
    (q := fun i => if supp.getD i 0 = a o then 1 else 0)
    (fun i _ _ => HasChance.const fun g => ⟨Hits_one _ rfl, rfl⟩)
    (F := p.simulate r [o] [] [] N) (by
      intro g i g' hg
      obtain ⟨out, e1, e2⟩ := h7 N hN g i g' hg
      rw [e1]
      exact ⟨(Hits_one _ e2).trans (Hits_one _ rfl).symm, rfl⟩)
  convert hlaw using 1
  by_cases hk : a o ∈ supp
  · obtain ⟨j, hj, hjk⟩ := List.mem_iff_getElem.1 hk
    have hg : ∀ i (hi : i < supp.length), supp.getD i 0 = supp[i] := fun i hi => by
      rw [List.getD_eq_getElem?_getD, List.getElem?_eq_getElem hi, Option.getD_some]
    rw [h2, Finset.sum_eq_single j]
    · rw [h5 j hj, hg j hj, if_pos hjk, mul_one, hjk]
    · intro i hi hij
      have hi := Finset.mem_range.1 hi
      rw [hg i hi, if_neg, mul_zero]
      intro h0
      exact hij ((h1.getElem_inj_iff).1 (h0.trans hjk.symm))
    · intro h0
      exact absurd (Finset.mem_range.2 hj) h0
  · rw [h6 _ hk, Finset.sum_eq_zero]
    · simp [Fl.exp]
    · intro i hi
      rw [h2] at hi
      have hi := Finset.mem_range.1 hi
      rw [if_neg, mul_zero]
      intro h0
      apply hk
      rw [← h0, List.getD_eq_getElem?_getD, List.getElem?_eq_getElem hi, Option.getD_some]
      exact List.getElem_mem hi

/-! ## Products -/

theorem exact_single {N : Option Nat} (hN : N = none ∨ N = some 1) {t : List Var} {o : SimOut}
    (h : ExactSamples N t o) : ∃ s, samplesOf o = [s] := by
  have := h.2.1
  rcases hN with rfl | rfl <;> exact List.length_eq_one_iff.1 this

theorem each_law {m : Py (S × Rng) SimOut} {T : S → List Var} {a : Var → Int} {q : S → ENNReal} :
    ∀ l : List S, (∀ c ∈ l, HasChance μ (runs m c) (T c) a (q c)) → ∀ B : Set Rng, MeasurableSet B →
      MeasurableSet {g | (∃ outs, (Py.each m (l, g)).1 = .ok outs ∧
        List.Forall₂ (fun c o => Hits (T c) a (.ok o)) l outs) ∧ (Py.each m (l, g)).2.2 ∈ B} ∧
      Pr μ {g | (∃ outs, (Py.each m (l, g)).1 = .ok outs ∧
        List.Forall₂ (fun c o => Hits (T c) a (.ok o)) l outs) ∧ (Py.each m (l, g)).2.2 ∈ B} =
        (l.map q).prod * Pr μ B := by
  intro l
  induction l with
  | nil =>
    intro _ B hB
    have : {g | (∃ outs, (Py.each m ([], g)).1 = .ok outs ∧
        List.Forall₂ (fun c o => Hits (T c) a (.ok o)) [] outs) ∧ (Py.each m ([], g)).2.2 ∈ B} = B := by
      ext g
      simp [Py.each_nil]
    rw [this]
    simp [hB]
  | cons c l ih =>
    intro h B hB
    obtain ⟨h1, h2⟩ := ih (fun c hc => h c (by simp [hc])) B hB
    obtain ⟨h3, h4⟩ := h c (by simp) _ h1
    have hset : {g | (∃ outs, (Py.each m (c :: l, g)).1 = .ok outs ∧
        List.Forall₂ (fun c o => Hits (T c) a (.ok o)) (c :: l) outs) ∧ (Py.each m (c :: l, g)).2.2 ∈ B} =
        {g | Hits (T c) a (runs m c g).1 ∧ (runs m c g).2 ∈ {g | (∃ outs, (Py.each m (l, g)).1 = .ok outs ∧
        List.Forall₂ (fun c o => Hits (T c) a (.ok o)) l outs) ∧ (Py.each m (l, g)).2.2 ∈ B}} := by
      ext g
      simp only [Set.mem_ofPred_eq, runs, Py.each_cons]
      rcases hm : m (c, g) with ⟨e | o, s1, g1⟩
      · constructor
        · rintro ⟨⟨outs, h, -⟩, -⟩
          cases h
        · rintro ⟨⟨o, s, h, -⟩, -⟩
          cases h
      · dsimp only
        rcases hm' : Py.each m (l, g1) with ⟨e | os, s2, g2⟩
        · constructor
          · rintro ⟨⟨outs, h, -⟩, -⟩
            cases h
          · rintro ⟨-, ⟨o, h, -⟩, -⟩
            cases h
        · dsimp only
          constructor
          · rintro ⟨⟨outs, h, h'⟩, hB⟩
            cases h
            cases h' with
            | cons h' h'' => exact ⟨h', ⟨os, rfl, h''⟩, hB⟩
          · rintro ⟨h', ⟨outs, h, h''⟩, hB⟩
            cases h
            exact ⟨⟨_, rfl, .cons h' h''⟩, hB⟩
    rw [hset]
    refine ⟨h3, h4.trans ?_⟩
    rw [h2, List.map_cons, List.prod_cons, mul_assoc]

theorem merge_column {N : Option Nat} {outsOf : S → List Var} {t : List Var} {l : List S}
    {outs : List SimOut} {out : SimOut} (hd : (l.flatMap outsOf).Nodup)
    (hE : List.Forall₂ (fun c o => ExactSamples N (onlyVars (outsOf c) t) o) l outs)
    (ho : mergeSamples outs = .ok out) {i : Nat} (hi : i < l.length) (hi' : i < outs.length) {v : Var}
    (hv : v ∈ outsOf l[i]) :
    (samplesOf out).map (fun s => Dict.get? s v) = (samplesOf outs[i]).map fun s => Dict.get? s v := by
  obtain ⟨hlen, hE⟩ := List.forall₂_iff_get.1 hE
  have hE : ∀ j (h1 : j < l.length) (h2 : j < outs.length),
      ExactSamples N (onlyVars (outsOf l[j]) t) outs[j] := fun j h1 h2 => hE j h1 h2
  have hsplit : outs = outs.take i ++ outs[i] :: outs.drop (i + 1) := by
    rw [List.getElem_cons_drop, List.take_append_drop]
  have hmem : ∀ o ∈ outs, ∃ c, ExactSamples N (onlyVars (outsOf c) t) o := by
    intro o ho
    obtain ⟨j, hj, rfl⟩ := List.mem_iff_getElem.1 ho
    exact ⟨_, hE j (by omega) hj⟩
  rw [hsplit] at ho
  refine mergeSamples_column (N := N) ?_ ?_ ho ?_
  · intro o' ho'
    rw [← hsplit] at ho'
    obtain ⟨c, h⟩ := hmem o' ho'
    exact ⟨h.1, h.2.1⟩
  · intro o' ho' s hs
    rw [← hsplit] at ho'
    obtain ⟨c, h⟩ := hmem o' ho'
    exact (h.2.2 s hs).2
  · intro o' ho' s hs hk
    have : ∃ j, ∃ (hj : j < outs.length), j ≠ i ∧ outs[j] = o' := by
      rcases List.mem_append.1 ho' with h | h
      · obtain ⟨j, hj, rfl⟩ := List.mem_iff_getElem.1 h
        rw [List.length_take] at hj
        exact ⟨j, by omega, by omega, by simp⟩
      · obtain ⟨j, hj, rfl⟩ := List.mem_iff_getElem.1 h
        rw [List.length_drop] at hj
        exact ⟨i + 1 + j, by omega, by omega, by simp⟩
    obtain ⟨j, hj, hji, rfl⟩ := this
    have hvj := (mem_onlyVars.1 ((((hE j (by omega) hj).2.2 s hs).1 v).1 hk)).2
    have hp := List.pairwise_iff_getElem.1 (List.nodup_flatMap.1 hd).2
    rcases Nat.lt_or_gt_of_ne hji with h | h
    · exact hp j i (by omega) hi h hvj hv
    · exact hp i j hi (by omega) h hv hvj

theorem merge_hits {N : Option Nat} (hN : N = none ∨ N = some 1) {outsOf : S → List Var} {t : List Var}
    {a : Var → Int} {l : List S} {outs : List SimOut} {out : SimOut} (hd : (l.flatMap outsOf).Nodup)
    (ht : ∀ v ∈ t, v ∈ l.flatMap outsOf) (hne : t ≠ [])
    (hE : List.Forall₂ (fun c o => ExactSamples N (onlyVars (outsOf c) t) o) l outs)
    (ho : mergeSamples outs = .ok out) : Hits t a (.ok out) ↔
      List.Forall₂ (fun c o => Hits (onlyVars (outsOf c) t) a (.ok o)) l outs := by
  have hcol := fun i hi hi' v hv => merge_column (v := v) hd hE ho (i := i) hi hi' hv
  obtain ⟨hlen, hE'⟩ := List.forall₂_iff_get.1 hE
  have hE' : ∀ j (h1 : j < l.length) (h2 : j < outs.length),
      ExactSamples N (onlyVars (outsOf l[j]) t) outs[j] := fun j h1 h2 => hE' j h1 h2
  constructor
  · rintro ⟨out', s, h1, h2, h3⟩
    cases h1
    refine List.forall₂_iff_get.2 ⟨hlen, fun i hi hi' => ?_⟩
    obtain ⟨s', hs'⟩ := exact_single hN (hE' i hi hi')
    refine ⟨_, s', rfl, hs', fun v hv => ?_⟩
    obtain ⟨hv1, hv2⟩ := mem_onlyVars.1 hv
    have := hcol i hi hi' v hv2
    rw [h2, hs'] at this
    simp only [List.map_cons, List.map_nil, List.cons.injEq, and_true] at this
    rw [← this]
    exact h3 v hv1
  · intro h
    obtain ⟨-, h⟩ := List.forall₂_iff_get.1 h
    have hv' : ∀ v ∈ t, ∃ i, ∃ (hi : i < l.length), v ∈ outsOf l[i] := by
      intro v hv
      obtain ⟨c, hc, hvc⟩ := List.mem_flatMap.1 (ht v hv)
      obtain ⟨i, hi, rfl⟩ := List.mem_iff_getElem.1 hc
      exact ⟨i, hi, hvc⟩
    have hone : ∃ s, samplesOf out = [s] := by
      obtain ⟨v, hv⟩ := List.exists_mem_of_ne_nil t hne
      obtain ⟨i, hi, hvi⟩ := hv' v hv
      obtain ⟨s', hs'⟩ := exact_single hN (hE' i hi (by omega))
      have := congrArg List.length (hcol i hi (by omega) v hvi)
      rw [hs'] at this
      simp only [List.length_map, List.length_cons, List.length_nil] at this
      exact List.length_eq_one_iff.1 this
    obtain ⟨s, hs⟩ := hone
    refine ⟨out, s, rfl, hs, fun v hv => ?_⟩
    obtain ⟨i, hi, hvi⟩ := hv' v hv
    obtain ⟨o, s', h1, h2, h3⟩ := h i hi (by omega)
    cases h1
    have := hcol i hi (by omega) v hvi
    have h2 : samplesOf outs[i] = [s'] := h2
    rw [hs, h2] at this
    simp only [List.map_cons, List.map_nil, List.cons.injEq, and_true] at this
    rw [this]
    exact h3 v (mem_onlyVars.2 ⟨hv, hvi⟩)

theorem product_law {I : Iface S} {T : Tab S} {P : S → Prop} (hS : SimLaw I T P) {p : Product S}
    (hd : (p.cgpms.flatMap I.outputs).Nodup) {r : RowId} (hreg : ∀ c ∈ p.cgpms, T.Reg c ∧ T.Fresh c r)
    {t : List Var} (ht : ∀ v ∈ t, v ∈ p.cgpms.flatMap I.outputs) (hne : t ≠ []) {cs : Dict Var Val}
    {N : Option Nat} (hN : N = none ∨ N = some 1) {a : Var → Int} {q : S → ENNReal}
    (h0 : ∀ c ∈ p.cgpms, onlyVars (I.outputs c) t = [] → q c = 1)
    (h : ∀ c ∈ p.cgpms, onlyVars (I.outputs c) t ≠ [] → HasChance μ (runs (I.simulate r
      (onlyVars (I.outputs c) t) (only (I.outputs c) cs) [] N) c) (onlyVars (I.outputs c) t) a (q c)) :
    HasChance μ (runs (Product.simulate I r t cs [] N) p) t a (p.cgpms.map q).prod := by
  have hN0 : N ≠ some 0 := by rcases hN with rfl | rfl <;> simp
  have hone : ∀ c g, simulateOne I r t cs [] N (c, g) =
      (if onlyVars (I.outputs c) t = [] then (Pure.pure (noValues N) : Py (S × Rng) SimOut)
      else I.simulate r (onlyVars (I.outputs c) t) (only (I.outputs c) cs) (only (I.inputs c) []) N)
      (c, g) := by
    intro c g
    unfold simulateOne
    rw [Py.get_bind]
    dsimp only
    rcases N with _ | n <;> rfl
  have hlaw := each_law (μ := μ) (m := simulateOne I r t cs [] N)
    (T := fun c => onlyVars (I.outputs c) t) (a := a) (q := q) p.cgpms (by
      intro c hc
      by_cases hT : onlyVars (I.outputs c) t = []
      · have := HasChance.const (μ := μ) (f := runs (simulateOne I r t cs [] N) c)
          (t := onlyVars (I.outputs c) t) (a := a) (b := True) (fun g => by
            have : simulateOne I r t cs [] N (c, g) = (.ok (noValues N), (c, g)) := by
              rw [hone, if_pos hT]
              rfl
            unfold runs
            rw [this]
            refine ⟨iff_true_intro ?_, rfl⟩
            obtain ⟨s, hs⟩ := exact_single hN (exact_noValues N)
            exact ⟨_, s, rfl, hs, by rw [hT]; simp⟩)
        rw [h0 c hc hT]
        simpa using this
      · refine (h c hc hT).congr fun g => ?_
        have : runs (simulateOne I r t cs [] N) c g = runs (I.simulate r
            (onlyVars (I.outputs c) t) (only (I.outputs c) cs) [] N) c g := by
          unfold runs
          rw [hone, if_neg hT]
          rfl
        rw [this]
        exact ⟨Iff.rfl, rfl⟩)
  intro B hB
  obtain ⟨h1, h2⟩ := hlaw B hB
  have hset : {g | Hits t a (runs (Product.simulate I r t cs [] N) p g).1 ∧
      (runs (Product.simulate I r t cs [] N) p g).2 ∈ B} =
      {g | (∃ outs, (Py.each (simulateOne I r t cs [] N) (p.cgpms, g)).1 = .ok outs ∧
        List.Forall₂ (fun c o => Hits (onlyVars (I.outputs c) t) a (.ok o)) p.cgpms outs) ∧
        (Py.each (simulateOne I r t cs [] N) (p.cgpms, g)).2.2 ∈ B} := by
    ext g
    simp only [Set.mem_ofPred_eq]
    have hrun : runs (Product.simulate I r t cs [] N) p g =
        (match (Py.each (simulateOne I r t cs [] N) (p.cgpms, g)).1 with
          | .error e => .error e
          | .ok outs => mergeSamples outs,
        (Py.each (simulateOne I r t cs [] N) (p.cgpms, g)).2.2) := by
      have : runs (Product.simulate I r t cs [] N) p g = runs (Product.each (simulateOne I r t cs [] N) >>=
        fun samples => Py.lift (mergeSamples samples)) p g := rfl
      rw [this]
      unfold runs
      rw [Py.bind_apply]
      have h3 : (Product.each (simulateOne I r t cs [] N) (p, g)).1 =
        (Py.each (simulateOne I r t cs [] N) (p.cgpms, g)).1 := rfl
      have h4 : (Product.each (simulateOne I r t cs [] N) (p, g)).2.2 =
        (Py.each (simulateOne I r t cs [] N) (p.cgpms, g)).2.2 := rfl
      rcases hx : Product.each (simulateOne I r t cs [] N) (p, g) with ⟨e | o, s1, g1⟩
      · rw [hx] at h3 h4
        rw [← h3, ← h4]
      · rw [hx] at h3 h4
        rw [← h3, ← h4]
        rfl
    rw [hrun]
    dsimp only
    refine and_congr_left fun _ => ?_
    rcases hx : (Py.each (simulateOne I r t cs [] N) (p.cgpms, g)).1 with e | outs
    · constructor
      · rintro ⟨o, s, h, -⟩
        cases h
      · rintro ⟨outs, h, -⟩
        cases h
    · have hw := Py.each_post (P := fun c => T.Reg c ∧ T.Fresh c r)
        (Q := fun c o => ExactSamples N (onlyVars (I.outputs c) t) o) (by
          intro c g a hc ha
          rw [hone] at ha
          split at ha
          · next hT =>
            cases ha
            rw [hT]
            exact exact_noValues N
          · exact hS c r _ _ N g a hc.1 (.inl hc.2) (fun v hv => (mem_onlyVars.1 hv).2) hN0 ha)
        p.cgpms g outs hreg hx
      have hne' : outs ≠ [] := by
        rintro rfl
        have h0 : p.cgpms = [] := List.forall₂_nil_right_iff.1 hw
        rw [h0] at ht
        rcases t with _ | ⟨v, t⟩
        · exact hne rfl
        · simpa using ht v (by simp)
      obtain ⟨out, hout⟩ := mergeSamples_ok (N := N) (outs := outs) hne' (fun o ho => by
        obtain ⟨c, hq⟩ := forall₂_exists hw ho
        exact hq.1)
      dsimp only
      rw [hout, merge_hits hN hd ht hne hw hout]
      constructor
      · exact fun h => ⟨outs, rfl, h⟩
      · rintro ⟨os, h, h'⟩
        cases h
        exact h'
  rw [hset]
  exact ⟨h1, h2⟩

end Cgpm2
