import Verif.Lemmas.ViewLaw
import Verif.Lemmas.ConcreteViewLaw
import Verif.Spec.ViewLaw

/-!
# C115: the law of a move of a column between views
-/

namespace Cgpm2.Props
open Spec Views Cpp

variable {Z : List Var}

theorem movedTo {x : Crosscat} (h : CC Z x) {o : Var} {k : Nat} {v0 : View} {ps0 : List View}
    {X : Nat → Crosscat} {D : Nat → ℝ} {S s0 : ℝ} {alone : Prop} (hm : Moves x o k v0 ps0 X D S s0 alone) {c : Nat → ℝ}
    (hc : ∀ i < x.cgpms.length, (i ≠ k → alone → c i = s0) ∧ (i = k ∨ ¬ alone → c i = 0)) :
    MovedTo x o k X fun i => S + D i - D k - c i := by
  refine ⟨hm.stay, fun i v hv hik => ?_, fun i hi => ?_⟩
  · obtain ⟨l, p, v', b1, b2, b3⟩ := hm.last i (List.getElem?_eq_some_iff.1 hv).1 hik
    rw [hv] at b2
    cases b2
    refine ⟨p, by rw [b1]; simp, ?_⟩
    unfold viewColumns
    rw [b3, List.tail_append_of_ne_nil]
    exact (cgpmFrame Z 2).some v (h.viewReg (List.mem_of_getElem? hv))
  · obtain ⟨a, h1, h2, h3⟩ := hm.score i hi
    rw [h3]
    by_cases hik : i = k
    · rw [h2 (.inl hik), (hc i hi).2 (.inl hik)]
    by_cases hal : alone
    · rw [h1 hik hal, (hc i hi).1 hik hal]
    · rw [h2 (.inr hal), (hc i hi).2 (.inr hal)]

theorem not_alone {v : View} {o b : Var} (hb : b ∈ viewColumns v) (hbo : b ≠ o) : viewColumns v ≠ [o] := by
  intro e
  rw [e] at hb
  exact hbo (List.mem_singleton.1 hb)

/-- C115: a column that is not the only one of its view moves to each of the views there are, or
stays, with a chance in proportion to exp(logpdf_score()) of the CrossCat that results; `W` is the
weight of the new views, if any. -/
theorem C115_move (Z : List Var) (x : Crosscat) (h : Tidy Z 3 (whole x)) (hx : IsCrosscat x)
    (hpl : ∀ v ∈ columns x, v ∉ Z) (R : RowId → Prop) (hR : Aligned x R) (hs : SharedHypers x) (o b : Var) (k : Nat)
    (v0 : View) (hk : x.cgpms[k]? = some v0) (hk256 : k ≤ 256) (ho : o ∈ viewColumns v0) (hb : b ∈ viewColumns v0)
    (hbo : b ≠ o) (aux : Nat) (ps : List View) (x1 : Crosscat) (G : ℝ → Rng) (g1 : Rng)
    (hG : ∀ u ∈ Set.Ico (0 : ℝ) 1, proposals [o] aux (x, G u) = (.ok ps, (x1, withUniform u g1)))
    (hz : ∀ i p, ps[i]? = some p → x.cgpms.length ≤ i → ((cgpmI 2).outputs p).headD 0 ≠ o) :
    ∃ (X : Nat → Crosscat) (s : Nat → ℝ) (W : ℝ), MovedTo x o k X s ∧ 0 ≤ W ∧ ∀ i < x.cgpms.length,
      chance (fun u => (transitionViewAssignments [o] aux (x, G u)).1 = .ok (X i)) =
        ENNReal.ofReal (Real.exp (s i) / (∑ j ∈ Finset.range x.cgpms.length, Real.exp (s j) + W)) := by
  have hc := cc_of_tidy h hx hpl
  obtain ⟨ps0, X, D, S, s0, alone, hm⟩ := moves hc ((aligned_iff hc R).1 hR) hk ho hk256 hs
  have hal : ¬ alone := fun h => not_alone hb hbo (hm.lone.1 h)
  obtain ⟨W, hW, -, hlaw⟩ := hm.law hc hk ho hG hz (.inl hal)
  refine ⟨X, fun i => S + D i - D k - 0, Real.exp (S - D k) * W,
    movedTo hc hm fun i _ => ⟨fun _ h => absurd h hal, fun _ => rfl⟩, by positivity, fun i hi => ?_⟩
  rw [hlaw i hi]
  have e : ∀ j, Real.exp (S + D j - D k - 0) = Real.exp (S - D k) * Real.exp (D j) := fun j => by
    rw [← Real.exp_add]; congr 1; ring
  simp only [e]
  rw [← Finset.mul_sum, ← mul_add, mul_div_mul_left _ _ (Real.exp_ne_zero _)]

/-- C115, without new views: the chances of the views there are. -/
theorem C115_existing (Z : List Var) (x : Crosscat) (h : Tidy Z 3 (whole x)) (hx : IsCrosscat x)
    (hpl : ∀ v ∈ columns x, v ∉ Z) (R : RowId → Prop) (hR : Aligned x R) (hs : SharedHypers x) (o b : Var) (k : Nat)
    (v0 : View) (hk : x.cgpms[k]? = some v0) (hk256 : k ≤ 256) (ho : o ∈ viewColumns v0) (hb : b ∈ viewColumns v0)
    (hbo : b ≠ o) (g : Rng) :
    ∃ (X : Nat → Crosscat) (s : Nat → ℝ), MovedTo x o k X s ∧ ∀ i < x.cgpms.length,
      chance (fun u => (transitionViewAssignments [o] 0 (x, withUniform u g)).1 = .ok (X i)) =
        ENNReal.ofReal (Real.exp (s i) / ∑ j ∈ Finset.range x.cgpms.length, Real.exp (s j)) := by
  have hc := cc_of_tidy h hx hpl
  obtain ⟨ps0, X, D, S, s0, alone, hm⟩ := moves hc ((aligned_iff hc R).1 hR) hk ho hk256 hs
  have hal : ¬ alone := fun h => not_alone hb hbo (hm.lone.1 h)
  obtain ⟨bs, ds, hbs, -⟩ := basesOf_total hc (outs := [o]) (by
    simpa using mem_columns.2 ⟨v0, List.mem_of_getElem? hk, ho⟩) (by simp)
  obtain ⟨W, -, hW, hlaw⟩ := hm.law hc hk ho (fun u _ => proposals_none hm.run hbs (withUniform u g)) (fun i p hp hi => by
    have := (List.getElem?_eq_some_iff.1 hp).1
    rw [hm.len] at this
    omega) (.inl hal)
  refine ⟨X, fun i => S + D i - D k - 0, movedTo hc hm fun i _ => ⟨fun _ h => absurd h hal, fun _ => rfl⟩, fun i hi => ?_⟩
  rw [hlaw i hi, hW rfl, add_zero]
  have e : ∀ j, Real.exp (S + D j - D k - 0) = Real.exp (S - D k) * Real.exp (D j) := fun j => by
    rw [← Real.exp_add]; congr 1; ring
  simp only [e]
  rw [← Finset.mul_sum, mul_div_mul_left _ _ (Real.exp_ne_zero _)]

/-- C115: a column that is alone in its view: the chances to join other views are too small or too
large by one factor exp(c), where `c` is the part of the score that its view has from the clusters
of the rows. -/
theorem C115_alone (Z : List Var) (x : Crosscat) (h : Tidy Z 3 (whole x)) (hx : IsCrosscat x)
    (hpl : ∀ v ∈ columns x, v ∉ Z) (R : RowId → Prop) (hR : Aligned x R) (hs : SharedHypers x) (o : Var) (k : Nat)
    (v0 : View) (hk : x.cgpms[k]? = some v0) (hk256 : k ≤ 256) (ho : viewColumns v0 = [o]) (g : Rng) :
    ∃ (X : Nat → Crosscat) (s : Nat → ℝ) (c d : ℝ), MovedTo x o k X s ∧ dataLogp v0 o = .ok (.fin d) ∧
      (cgpmI 2).logpdfScore v0 = .ok (.fin (d + c)) ∧ ∀ i < x.cgpms.length,
      chance (fun u => (transitionViewAssignments [o] 0 (x, withUniform u g)).1 = .ok (X i)) =
        ENNReal.ofReal (Real.exp (s i + if i = k then 0 else c) /
          ∑ j ∈ Finset.range x.cgpms.length, Real.exp (s j + if j = k then 0 else c)) := by
  have hc := cc_of_tidy h hx hpl
  have ho' : o ∈ viewColumns v0 := by rw [ho]; simp
  obtain ⟨ps0, X, D, S, s0, alone, hm⟩ := moves hc ((aligned_iff hc R).1 hR) hk ho' hk256 hs
  have hal : alone := hm.lone.2 ho
  obtain ⟨bs, ds, hbs, -⟩ := basesOf_total hc (outs := [o]) (by
    simpa using mem_columns.2 ⟨v0, List.mem_of_getElem? hk, ho'⟩) (by simp)
  obtain ⟨W, -, hW, hlaw⟩ := hm.law hc hk ho' (fun u _ => proposals_none hm.run hbs (withUniform u g)) (fun i p hp hi => by
    have := (List.getElem?_eq_some_iff.1 hp).1
    rw [hm.len] at this
    omega) (.inr rfl)
  refine ⟨X, fun i => S + D i - D k - if i = k then 0 else s0, s0, D k, movedTo hc hm fun i _ =>
    ⟨fun hik _ => if_neg hik, fun h => if_pos (h.resolve_right (not_not.2 hal))⟩, hm.logp k v0 hm.here, hm.held, fun i hi => ?_⟩
  rw [hlaw i hi, hW rfl, add_zero]
  have e : ∀ j, Real.exp ((S + D j - D k - if j = k then 0 else s0) + if j = k then 0 else s0) =
      Real.exp (S - D k) * Real.exp (D j) := fun j => by
    rw [← Real.exp_add]; congr 1; ring
  simp only [e]
  rw [← Finset.mul_sum, mul_div_mul_left _ _ (Real.exp_ne_zero _)]

/-- The hypotheses are met: the column 2 of `ccat` shares its view with the column 1. -/
example (g : Rng) : ∃ (X : Nat → Crosscat) (s : Nat → ℝ) (W : ℝ), MovedTo Concrete.ccat 2 0 X s ∧ 0 ≤ W ∧
    ∀ i < Concrete.ccat.cgpms.length,
      chance (fun u => (transitionViewAssignments [2] 0 (Concrete.ccat, withUniform u g)).1 = .ok (X i)) =
        ENNReal.ofReal (Real.exp (s i) / (∑ j ∈ Finset.range Concrete.ccat.cgpms.length, Real.exp (s j) + W)) :=
  C115_move [5, 6] Concrete.ccat Concrete.ccat_tidy Concrete.ccat_crosscat Concrete.ccat_plain _ Concrete.ccat_aligned
    Concrete.ccat_shared 2 1 0 _ rfl (by omega) (by change (2 : Var) ∈ [1, 2]; simp) (by change (1 : Var) ∈ [1, 2]; simp)
    (by decide) 0 _ _ (fun u => withUniform u g) g (fun u _ => Concrete.ccat_proposals _) (fun i p hp hi => by
      exfalso
      have := (List.getElem?_eq_some_iff.1 hp).1
      have h2 : 2 ≤ i := hi
      have h3 : i < 2 := this
      omega)

example (g : Rng) : ∃ (X : Nat → Crosscat) (s : Nat → ℝ), MovedTo Concrete.ccat 2 0 X s ∧
    ∀ i < Concrete.ccat.cgpms.length,
      chance (fun u => (transitionViewAssignments [2] 0 (Concrete.ccat, withUniform u g)).1 = .ok (X i)) =
        ENNReal.ofReal (Real.exp (s i) / ∑ j ∈ Finset.range Concrete.ccat.cgpms.length, Real.exp (s j)) :=
  C115_existing [5, 6] Concrete.ccat Concrete.ccat_tidy Concrete.ccat_crosscat Concrete.ccat_plain _ Concrete.ccat_aligned
    Concrete.ccat_shared 2 1 0 _ rfl (by omega) (by change (2 : Var) ∈ [1, 2]; simp) (by change (1 : Var) ∈ [1, 2]; simp)
    (by decide) g

/-- The column 3 of `ccat` is alone in its view. -/
example (g : Rng) := C115_alone [5, 6] Concrete.ccat Concrete.ccat_tidy Concrete.ccat_crosscat
  Concrete.ccat_plain _ Concrete.ccat_aligned Concrete.ccat_shared 3 1 _ rfl (by omega) rfl g

/-- C115 with the smallest CrossCat: a column alone in its view does not move in proportion to the
scores of the results. -/
theorem C115_alone_violated (g : Rng) :
    (Tidy [5, 6] 3 (whole Concrete.ccat) ∧ IsCrosscat Concrete.ccat ∧ (∀ v ∈ columns Concrete.ccat, v ∉ [5, 6]) ∧
      Aligned Concrete.ccat (fun r => r = some 0 ∨ r = some 1) ∧ SharedHypers Concrete.ccat ∧
      ∃ v0, Concrete.ccat.cgpms[1]? = some v0 ∧ viewColumns v0 = [3]) ∧
    ¬ ∃ (X : Nat → Crosscat) (s : Nat → ℝ), MovedTo Concrete.ccat 3 1 X s ∧ ∀ i < Concrete.ccat.cgpms.length,
      chance (fun u => (transitionViewAssignments [3] 0 (Concrete.ccat, withUniform u g)).1 = .ok (X i)) =
        ENNReal.ofReal (Real.exp (s i) / ∑ j ∈ Finset.range Concrete.ccat.cgpms.length, Real.exp (s j)) := by
  refine ⟨⟨Concrete.ccat_tidy, Concrete.ccat_crosscat, Concrete.ccat_plain, Concrete.ccat_aligned, Concrete.ccat_shared,
    _, rfl, rfl⟩, ?_⟩
  have reach : ∀ (X : Nat → Crosscat) (s : Nat → ℝ) (a : ℝ), MovedTo Concrete.ccat 3 1 X s → 0 < a →
      chance (fun u => (transitionViewAssignments [3] 0 (Concrete.ccat, withUniform u g)).1 = .ok (X 0)) = ENNReal.ofReal a →
      X 0 = Concrete.ccat'' := by
    intro X s a hm ha h
    have : ∃ u : ℝ, (transitionViewAssignments [3] 0 (Concrete.ccat, withUniform u g)).1 = .ok (X 0) := by
      by_contra hn
      push Not at hn
      have : chance (fun u => (transitionViewAssignments [3] 0 (Concrete.ccat, withUniform u g)).1 = .ok (X 0)) = 0 := by
        unfold chance
        have : {u : ℝ | u ∈ Set.Ico (0 : ℝ) 1 ∧ (transitionViewAssignments [3] 0 (Concrete.ccat, withUniform u g)).1 = .ok (X 0)} = ∅ := by
          ext u
          simp only [Set.mem_ofPred_eq, Set.mem_empty_iff_false, iff_false, not_and]
          exact fun _ => hn u
        rw [this]
        simp
      rw [this] at h
      exact absurd (ENNReal.ofReal_eq_zero.1 h.symm) (not_le.2 ha)
    obtain ⟨u, hu⟩ := this
    rcases Concrete.ccat_outcomes hu with e | e
    · exfalso
      obtain ⟨w, hw, hcol⟩ := hm.moved 0 _ rfl (by omega)
      rw [e] at hw
      have hw : w ∈ [(.flexMix Concrete.viewA : Node (Node Prim)), (.flexMix Concrete.viewB : Node (Node Prim))] := hw
      rcases List.mem_cons.1 hw with rfl | hw
      · exact absurd (congrArg List.length hcol) (by decide)
      · rw [List.mem_singleton.1 hw] at hcol
        exact absurd (congrArg List.length hcol) (by decide)
    · exact e
  rintro ⟨X, s, hm, hl⟩
  obtain ⟨Y, t, c, d, hm', h1, h2, hl'⟩ := C115_alone [5, 6] Concrete.ccat Concrete.ccat_tidy Concrete.ccat_crosscat
    Concrete.ccat_plain _ Concrete.ccat_aligned Concrete.ccat_shared 3 1 _ rfl (by omega) rfl g
  have hc := Concrete.viewB_excess h1 h2
  have hX := reach X s _ hm (by positivity) (hl 0 (by decide))
  have hY := reach Y t _ hm' (by positivity) (hl' 0 (by decide))
  have e0 : s 0 = t 0 := by
    have a := hm.score 0 (by decide)
    have b := hm'.score 0 (by decide)
    rw [hX] at a
    rw [hY, a] at b
    injection b with b
    injection b
  have e1 : s 1 = t 1 := by
    have a := hm.score 1 (by decide)
    have b := hm'.score 1 (by decide)
    rw [hm.stay] at a
    rw [hm'.stay, a] at b
    injection b with b
    injection b
  have a := hl 1 (by decide)
  have b := hl' 1 (by decide)
  rw [hm.stay] at a
  rw [hm'.stay, a] at b
  have hn : Concrete.ccat.cgpms.length = 2 := rfl
  rw [hn] at b
  simp only [Finset.sum_range_succ, Finset.range_zero, Finset.sum_empty, zero_add, e0, e1] at b
  rw [ENNReal.ofReal_eq_ofReal_iff (by positivity) (by positivity)] at b
  simp only [if_true, add_zero, show ((0 : Nat) = 1) = False by simp, if_false] at b
  have p0 := Real.exp_pos (t 0)
  have p1 := Real.exp_pos (t 1)
  rw [Real.exp_add, hc, Real.exp_neg, Real.exp_log (by norm_num)] at b
  rw [div_eq_div_iff (by positivity) (by positivity)] at b
  nlinarith [mul_pos p0 p1]
end Cgpm2.Props
