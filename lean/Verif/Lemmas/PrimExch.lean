import Verif.Lemmas.PrimScore

/-!
# Answers depend only on the multiset of held values (helpers)
-/

set_option linter.unusedSimpArgs false

namespace Cgpm2
open Spec

theorem present_map_num (l : List Int) :
    present (l.map fun x : Int => Val.num (x : ℚ)) = l.map fun x : Int => (x : ℚ) := by
  induction l with
  | nil => rfl
  | cons x l ih => simp only [List.map_cons, present_cons_num, ih]

theorem Crp.held_eq (c : Crp) : held (.crp c) = (Dict.values c.data).map fun x : Int => (x : ℚ) := by
  unfold held Prim.data valuesOf Dict.values
  rw [List.map_map]
  have : (c.data.map (Prod.snd ∘ fun kv : RowId × Int => (kv.1, Val.num ((kv.2 : Int) : ℚ))))
      = (c.data.map Prod.snd).map fun x : Int => Val.num (x : ℚ) := by
    rw [List.map_map]; rfl
  rw [this, present_map_num]

theorem perm_of_map_cast {l m : List Int}
    (h : (l.map fun x : Int => (x : ℚ)).Perm (m.map fun x : Int => (x : ℚ))) : l.Perm m := by
  rw [List.perm_iff_count]
  intro a
  have := h.count_eq (a : ℚ)
  have hinj : Function.Injective fun x : Int => (x : ℚ) := Int.cast_injective
  rwa [List.count_map_of_injective _ _ hinj, List.count_map_of_injective _ _ hinj] at this

namespace Crp

theorem support_congr {a b : Crp} (ha : a.Inv) (hb : b.Inv)
    (hp : (Dict.values a.data).Perm (Dict.values b.data)) : a.support = b.support := by
  refine List.Perm.eq_of_pairwise' (support_increasing ha) (support_increasing hb) ?_
  rw [List.perm_ext_iff_of_nodup (support_nodup ha) (support_nodup hb)]
  intro t
  rw [mem_support_iff ha, mem_support_iff hb]
  unfold NextTable
  simp only [hp.mem_iff]
  have : Dict.values a.data = [] ↔ Dict.values b.data = [] := by
    constructor
    · intro h; rw [h] at hp; exact hp.symm.eq_nil
    · intro h; rw [h] at hp; exact hp.eq_nil
  rw [this]

theorem congr {a b : Crp} (ha : a.Inv) (hb : b.Inv) (hal : 0 < a.alpha)
    (ho : a.outputs = b.outputs) (halpha : a.alpha = b.alpha)
    (hp : (Dict.values a.data).Perm (Dict.values b.data)) :
    a.logpdfScore = b.logpdfScore ∧ ∀ r, r ∉ Dict.keys a.data → r ∉ Dict.keys b.data →
      ∀ t c i, a.logpdf r t c i = b.logpdf r t c i := by
  have hseat : ∀ t, a.seated t = b.seated t := fun t => hp.count_eq t
  have hN : a.N = b.N := by
    rw [ha.N, hb.N]
    have := hp.length_eq
    simp only [Dict.values, List.length_map] at this
    rw [this]
  constructor
  · rw [logpdfScore_eq ha hal, logpdfScore_eq hb (halpha ▸ hal)]
    congr 2
    unfold score
    rw [halpha, hN, (tables_perm_dedup ha).length_eq, (tables_perm_dedup hb).length_eq,
      (hp.dedup).length_eq, ((hp.dedup).map _).sum_eq]
    simp only [hseat]
  · intro r h1 h2 t c i
    unfold logpdf calcPredictiveLogp
    rw [(Dict.get?_eq_none_iff _ _).2 h1, (Dict.get?_eq_none_iff _ _).2 h2,
      support_congr ha hb hp, ho, halpha, hN]
    simp only [ha.counts, hb.counts, hseat]

end Crp

theorem Prim.congr {p p' : Prim} (h : p.Inv) (h' : p'.Inv) (hL : LegalHypers p)
    (hm : SameModel p p') (hp : (held p).Perm (held p')) :
    p.logpdfScore = p'.logpdfScore ∧ ∀ r, r ∉ Dict.keys p.data → r ∉ Dict.keys p'.data →
      ∀ t c i, p.logpdf r t c i = p'.logpdf r t c i := by
  have key : ∀ {d : Dict RowId Val} {r : RowId}, r ∉ Dict.keys d → Dict.has d r = false :=
    fun h => (Dict.has_eq_false_iff _ _).2 h
  cases p with
  | crp a =>
    cases p' with
    | crp b =>
      rw [Crp.held_eq, Crp.held_eq] at hp
      have := Crp.congr h h' hL hm.1 hm.2 (perm_of_map_cast hp)
      refine ⟨this.1, fun r h1 h2 => ?_⟩
      rw [data, keys_map_data] at h1 h2
      exact this.2 r h1 h2
    | _ => exact hm.elim
  | categorical a =>
    cases p' with
    | categorical b =>
      change (present (valuesOf a.data)).Perm (present (valuesOf b.data)) at hp
      obtain ⟨m1, m2, m3⟩ := hm
      have hN : a.N = b.N := by
        rw [Categorical.Inv.N h, Categorical.Inv.N h', hp.length_eq]
      have hc : a.counts = b.counts := by
        rw [Categorical.counts_eq h, Categorical.counts_eq h', m3]
        apply List.map_congr_left
        intro i _
        rw [hp.count_eq]
      refine ⟨?_, fun r h1 h2 t c i => ?_⟩
      · simp only [logpdfScore, Categorical.logpdfScore, hN, hc, m2]
      · simp only [logpdf, Categorical.logpdf, m1, m2, m3, hN, hc]
        rw [key (d := a.data) h1, key (d := b.data) h2]
    | _ => exact hm.elim
  | bernoulli a =>
    cases p' with
    | bernoulli b =>
      change (present (valuesOf a.data)).Perm (present (valuesOf b.data)) at hp
      obtain ⟨m1, m2, m3⟩ := hm
      have hN : a.N = b.N := by
        rw [Bernoulli.Inv.N h, Bernoulli.Inv.N h', hp.length_eq]
      have hc : a.xSum = b.xSum := by
        rw [Bernoulli.Inv.xSum h, Bernoulli.Inv.xSum h', hp.count_eq]
      refine ⟨?_, fun r h1 h2 t c i => ?_⟩
      · simp only [logpdfScore, Bernoulli.logpdfScore, hN, hc, m2, m3]
      · simp only [logpdf, Bernoulli.logpdf, m1, m2, m3, hN, hc]
        rw [key (d := a.data) h1, key (d := b.data) h2]
    | _ => exact hm.elim
  | normal a =>
    cases p' with
    | normal b =>
      change (present (valuesOf a.data)).Perm (present (valuesOf b.data)) at hp
      obtain ⟨m1, m2, m3, m4, m5⟩ := hm
      have hN : a.N = b.N := by
        rw [Normal.Inv.N h, Normal.Inv.N h', hp.length_eq]
      have hc : a.sumX = b.sumX := by
        rw [Normal.Inv.sumX h, Normal.Inv.sumX h', hp.sum_eq]
      have hd : a.sumXSq = b.sumXSq := by
        rw [Normal.Inv.sumXSq h, Normal.Inv.sumXSq h', (hp.map _).sum_eq]
      refine ⟨?_, fun r h1 h2 t c i => ?_⟩
      · simp only [logpdfScore, Normal.logpdfScore, hN, hc, hd, m2, m3, m4, m5]
      · simp only [logpdf, Normal.logpdf, m1, m2, m3, m4, m5, hN, hc, hd]
        rw [key (d := a.data) h1, key (d := b.data) h2]
    | _ => exact hm.elim
  | normalUC a =>
    cases p' with
    | normalUC b =>
      change (present (valuesOf a.data)).Perm (present (valuesOf b.data)) at hp
      obtain ⟨m1, m2, m3⟩ := hm
      have hN : a.N = b.N := by
        rw [NormalUC.Inv.N h, NormalUC.Inv.N h', hp.length_eq]
      have hc : a.sumX = b.sumX := by
        rw [NormalUC.Inv.sumX h, NormalUC.Inv.sumX h', hp.sum_eq]
      have hd : a.sumXSq = b.sumXSq := by
        rw [NormalUC.Inv.sumXSq h, NormalUC.Inv.sumXSq h', (hp.map _).sum_eq]
      refine ⟨?_, fun r h1 h2 t c i => ?_⟩
      · simp only [logpdfScore, NormalUC.logpdfScore, hN, hc, hd, m2, m3]
      · simp only [logpdf, NormalUC.logpdf, m1, m2, m3, hN, hc, hd]
        rw [key (d := a.data) h1, key (d := b.data) h2]
    | _ => exact hm.elim
  | poisson a =>
    cases p' with
    | poisson b =>
      change (present (valuesOf a.data)).Perm (present (valuesOf b.data)) at hp
      obtain ⟨m1, m2, m3⟩ := hm
      have hN : a.N = b.N := by
        rw [Poisson.Inv.N h, Poisson.Inv.N h', hp.length_eq]
      have hc : a.sumX = b.sumX := by
        rw [Poisson.Inv.sumX h, Poisson.Inv.sumX h', hp.sum_eq]
      have hd : a.sumLogFactX = b.sumLogFactX := by
        rw [Poisson.Inv.sumLogFactX h, Poisson.Inv.sumLogFactX h', (hp.map _).sum_eq]
      refine ⟨?_, fun r h1 h2 t c i => ?_⟩
      · simp only [logpdfScore, Poisson.logpdfScore, hN, hc, hd, m2, m3]
      · simp only [logpdf, Poisson.logpdf, m1, m2, m3, hN, hc, hd]
        rw [key (d := a.data) h1, key (d := b.data) h2]
    | _ => exact hm.elim

end Cgpm2
