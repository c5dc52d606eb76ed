import Verif.Lemmas.Kernel
import Verif.Lemmas.RowLaw

/-!
# A Gibbs step on a row of a view resamples its cluster (helpers)
-/

namespace Cgpm2.Views
open Spec Cpp MeasureTheory

variable {Z : List Var} {v u w : View} {T : View → Prop} {μ : Measure Draw} [IsProbabilityMeasure μ]

theorem SamePartition.symm' (h : SamePartition u w) : SamePartition w u := fun r r' => (h r r').symm

theorem SamePartition.trans' {x : View} (h : SamePartition u w) (h' : SamePartition w x) : SamePartition u x :=
  fun r r' => (h r r').trans (h' r r')

theorem SamePartition.apart (h : SamePartition u w) (r : RowId) : SameApart r u w :=
  ⟨fun a => h a a, fun a b _ _ => h a b⟩

theorem SameApart.symm' {r : RowId} (h : SameApart r u w) : SameApart r w u :=
  ⟨fun a => (h.1 a).symm, fun a b ha hb => (h.2 a b ha hb).symm⟩

theorem SameApart.trans' {r : RowId} {x : View} (h : SameApart r u w) (h' : SameApart r w x) : SameApart r u x :=
  ⟨fun a => (h.1 a).trans (h'.1 a), fun a b ha hb => (h.2 a b ha hb).trans (h'.2 a b ha hb)⟩

theorem Mates.symm' {a b : RowId} (h : Mates u a b) : Mates u b a := by
  obtain ⟨k, hk⟩ := h
  exact ⟨k, fun g => (hk g).symm⟩

theorem Mates.trans' {a b c : RowId} (h : Mates u a b) (h' : Mates u b c) : Mates u a c := by
  obtain ⟨k, hk⟩ := h
  obtain ⟨k', hk'⟩ := h'
  have : k' = k := by
    have := (hk fun _ => ⟨0, 0⟩).2.symm.trans (hk' fun _ => ⟨0, 0⟩).1
    simpa using this.symm
  subst this
  exact ⟨k', fun g => ⟨(hk g).1, (hk' g).2⟩⟩

theorem present_mates (h : (cgpmTab Z 2).Reg u) (hu : IsView u) (r : RowId) :
    (cgpmTab Z 2).present u r ↔ Mates u r r := by
  rw [present_cluster h hu, mates_iff h]
  constructor
  · intro hn
    obtain ⟨k, hk⟩ := Option.ne_none_iff_exists'.1 hn
    exact ⟨k, hk, hk⟩
  · rintro ⟨k, hk, -⟩ hn
    rw [hk] at hn
    cases hn

/-! ## The outcomes of the step -/

section
variable {r : RowId} {supp : List Int} {s : Int → View} {x : Int → ℝ} {y : ℝ}

theorem Step.others (h : (cgpmTab Z 2).Reg u) (st : Step Z u r supp s x y) {k : Int} (hk : k ∈ supp) {a b : RowId}
    (ha : a ≠ r) (hb : b ≠ r) : Mates (s k) a b ↔ Mates u a b := by
  rw [mates_iff (st.kin k hk).reg, mates_iff h, st.moved k hk, st.moved k hk, if_neg ha, if_neg hb]

theorem Step.mates (st : Step Z u r supp s x y) {k : Int} (hk : k ∈ supp) {b : RowId} (hb : b ≠ r) :
    Mates (s k) r b ↔ clusterOf u b = some (.num (k : ℚ)) := by
  rw [mates_iff (st.kin k hk).reg, st.moved k hk, st.moved k hk, if_pos rfl, if_neg hb]
  constructor
  · rintro ⟨k', h1, h2⟩
    cases h1
    exact h2
  · exact fun h => ⟨_, rfl, h⟩

theorem Step.self (st : Step Z u r supp s x y) {k : Int} (hk : k ∈ supp) : Mates (s k) r r := by
  rw [mates_iff (st.kin k hk).reg, st.moved k hk, if_pos rfl]
  exact ⟨_, rfl, rfl⟩

theorem Step.apart (h : (cgpmTab Z 2).Reg u) (hr : Mates u r r) (st : Step Z u r supp s x y) {k : Int} (hk : k ∈ supp) :
    SameApart r u (s k) := by
  refine ⟨fun a => ?_, fun a b ha hb => (st.others h hk ha hb).symm⟩
  by_cases e : a = r
  · subst e
    exact ⟨fun _ => st.self hk, fun _ => hr⟩
  · exact (st.others h hk e e).symm

theorem Step.inj (st : Step Z u r supp s x y) {k j : Int} (hk : k ∈ supp) (hj : j ∈ supp)
    (h : SamePartition (s k) (s j)) : k = j := by
  have key : ∀ k j, k ∈ supp → j ∈ supp → SamePartition (s k) (s j) →
      (∃ a, a ≠ r ∧ clusterOf u a = some (.num (k : ℚ))) → k = j := by
    rintro k j hk hj h ⟨a, ha, hc⟩
    have := (st.mates hj ha).1 ((h r a).1 ((st.mates hk ha).2 hc))
    rw [hc] at this
    injection this with this
    injection this with this
    exact_mod_cast this
  obtain ⟨f, -, -, h2⟩ := st.fresh
  by_cases e : k = f
  · by_cases e' : j = f
    · exact e.trans e'.symm
    · exact (key j k hj hk (SamePartition.symm' h) (h2 j hj e')).symm
  · exact key k j hk hj h (h2 k hk e)

theorem Step.cover (h : (cgpmTab Z 2).Reg u) (hr : Mates u r r) (st : Step Z u r supp s x y) (hw : SameApart r u w) :
    ∃ k ∈ supp, SamePartition (s k) w := by
  have hrw : Mates w r r := (hw.1 r).1 hr
  have key : ∀ k ∈ supp, (∀ b, b ≠ r → (clusterOf u b = some (.num (k : ℚ)) ↔ Mates w r b)) → SamePartition (s k) w := by
    intro k hk hb a b
    by_cases ea : a = r
    · subst ea
      by_cases eb : b = a
      · subst eb
        exact ⟨fun _ => hrw, fun _ => st.self hk⟩
      · exact (st.mates hk eb).trans (hb b eb)
    · by_cases eb : b = r
      · subst eb
        exact ⟨fun h' => Mates.symm' ((hb a ea).1 ((st.mates hk ea).1 (Mates.symm' h'))),
          fun h' => Mates.symm' ((st.mates hk ea).2 ((hb a ea).2 (Mates.symm' h')))⟩
      · exact (st.others h hk ea eb).trans (hw.2 a b ea eb)
  by_cases hn : ∃ a, a ≠ r ∧ Mates w r a
  · obtain ⟨a, ha, hma⟩ := hn
    have haa : Mates u a a := (hw.1 a).2 (Mates.trans' (Mates.symm' hma) hma)
    obtain ⟨κ, hκ, -⟩ := (mates_iff h a a).1 haa
    obtain ⟨j, hj, rfl⟩ := st.occupied a ha κ hκ
    refine ⟨j, hj, key j hj fun b hb => ?_⟩
    constructor
    · intro hc
      exact Mates.trans' hma ((hw.2 a b ha hb).1 ((mates_iff h a b).2 ⟨_, hκ, hc⟩))
    · intro hm
      obtain ⟨k', h1, h2⟩ := (mates_iff h a b).1 ((hw.2 a b ha hb).2 (Mates.trans' (Mates.symm' hma) hm))
      rw [h2, ← h1, hκ]
  · obtain ⟨f, hf, h1, -⟩ := st.fresh
    refine ⟨f, hf, key f hf fun b hb => ⟨fun hc => absurd hc (h1 b hb), fun hm => absurd ⟨b, hb, hm⟩ hn⟩⟩

theorem Step.law (hμ : IsDraw μ) (st : Step Z u r supp s x y) {Φ : View → Set Rng}
    (hΦ : ∀ k ∈ supp, MeasurableSet (Φ (s k))) :
    MeasurableSet (Ends (transitionRows (cgpmI 1) r : Py (View × Rng) Unit) u Φ) ∧
    Pr μ (Ends (transitionRows (cgpmI 1) r : Py (View × Rng) Unit) u Φ) =
      ∑ i ∈ Finset.range supp.length, ENNReal.ofReal (Real.exp (x (supp.getD i 0)) /
        (supp.map fun k => Real.exp (x k)).sum) * Pr μ (Φ (s (supp.getD i 0))) := by
  have hpos : 0 < (supp.map fun k => Real.exp (x k)).sum := by
    refine List.sum_pos _ (fun p hp => ?_) (by simpa using st.ne)
    obtain ⟨k, -, rfl⟩ := List.mem_map.1 hp
    exact Real.exp_pos _
  refine branch_law (c := pflipIdx (supp.map fun k => Real.exp (x k))) (B := fun i => Φ (s (supp.getD i 0)))
    (fun g => ?_) (fun i hi B hB => ?_) (fun i hi => hΦ _ ?_) fun g i g' hc => ?_
  · obtain ⟨i, g', h1, h2, -⟩ := st.run g
    exact ⟨i, g', h1, h2⟩
  · obtain ⟨h1, h2⟩ := pflipIdx_law hμ (supp.map fun k => Real.exp (x k))
      (fun p hp => by obtain ⟨k, -, rfl⟩ := List.mem_map.1 hp; exact (Real.exp_pos _).le) hpos i (by simpa using hi) hB
    refine ⟨h1, h2.trans ?_⟩
    congr 3
    simp [List.getD_eq_getElem?_getD, List.getElem?_eq_getElem hi]
  · rw [List.getD_eq_getElem?_getD, List.getElem?_eq_getElem hi]
    exact List.getElem_mem hi
  · obtain ⟨i', g'', h1, h2, h3⟩ := st.run g
    rw [hc] at h1
    cases h1
    constructor
    · rintro ⟨_, _, _, h4, h5⟩
      have h4 := h3.symm.trans h4
      cases h4
      exact h5
    · exact fun h => ⟨_, _, _, h3, h⟩

theorem Step.reached (hμ : IsDraw μ) (st : Step Z u r supp s x y) {k : Int} (hk : k ∈ supp) :
    ∃ g g', transitionRows (cgpmI 1) r (u, g) = (.ok (), (s k, g')) := by
  classical
  obtain ⟨i, hi, rfl⟩ := List.getElem_of_mem hk
  have hpos : 0 < (supp.map fun k => Real.exp (x k)).sum := by
    refine List.sum_pos _ (fun p hp => ?_) (by simpa using st.ne)
    obtain ⟨k, -, rfl⟩ := List.mem_map.1 hp
    exact Real.exp_pos _
  obtain ⟨-, h2⟩ := pflipIdx_law hμ (supp.map fun k => Real.exp (x k))
    (fun p hp => by obtain ⟨k, -, rfl⟩ := List.mem_map.1 hp; exact (Real.exp_pos _).le) hpos i (by simpa using hi)
    MeasurableSet.univ
  have hne : Pr μ {g : Rng | (pflipIdx (supp.map fun k => Real.exp (x k)) g).1 = .ok i ∧
      (pflipIdx (supp.map fun k => Real.exp (x k)) g).2 ∈ Set.univ} ≠ 0 := by
    rw [h2, measure_univ, mul_one, Ne, ENNReal.ofReal_eq_zero, not_le]
    refine div_pos ?_ hpos
    simp only [List.getD_eq_getElem?_getD, List.getElem?_map, List.getElem?_eq_getElem hi, Option.map_some,
      Option.getD_some]
    exact Real.exp_pos _
  obtain ⟨g, hg, -⟩ := nonempty_of_measure_ne_zero hne
  obtain ⟨i', g', h1, h2, h3⟩ := st.run g
  rw [h1] at hg
  have hg : i' = i := by simpa using hg
  subst hg
  refine ⟨g, g', h3.trans ?_⟩
  rw [List.getD_eq_getElem?_getD, List.getElem?_eq_getElem hi, Option.getD_some]

/-! ## Views with the same table -/

theorem Step.fit (hp : ∀ o ∈ viewColumns v, o ∉ Z) (h : Fit T Z v u) (hr : Mates u r r) (st : Step Z u r supp s x y)
    {k : Int} (hk : k ∈ supp) (ht : T (s k)) : Fit T Z v (s k) := by
  have K := cgpmTLaws Z 2
  have kin := st.kin k hk
  have hv := isView_of_shape kin.shape kin.reg h.isView
  refine ⟨ht, kin.reg, hv, ⟨?_, ?_, kept_hypers h.contents (st.kept k hk), fun g a o ho => ?_⟩, fun a =>
    (h.rows a).trans ((st.apart h.reg hr hk).1 a)⟩
  · rw [kin.outs]
    exact h.contents.cluster
  · have : viewColumns (s k) = viewColumns u := by
      unfold viewColumns
      rw [kin.outs]
    rw [this]
    exact h.contents.columns
  · rw [← h.contents.cells g a o ho, heldCell_eq K kin.reg, heldCell_eq K h.reg]
    exact kin.cell a o (hp o ho)

/-- One view for each class. -/
structure Reps (T : View → Prop) (Z : List Var) (v : View) (vs : List View) : Prop where
  each : ∀ u ∈ vs, Fit T Z v u
  once : vs.Pairwise fun u w => ¬ SamePartition u w
  all : ∀ u, Fit T Z v u → ∃ w ∈ vs, SamePartition u w

theorem Reps.nodup {vs : List View} (h : Reps T Z v vs) : vs.Nodup :=
  List.Pairwise.imp (fun {a b} hn (e : a = b) => hn (e ▸ fun _ _ => Iff.rfl)) h.once

theorem Reps.eq {vs : List View} (h : Reps T Z v vs) (hu : u ∈ vs) (hw : w ∈ vs) (e : SamePartition u w) : u = w := by
  by_contra hne
  have : Std.Symm fun u w : View => ¬ SamePartition u w := ⟨fun _ _ hn e => hn (SamePartition.symm' e)⟩
  exact h.once.forall hu hw hne e

theorem joint_same (hv : (cgpmTab Z 2).Reg v) (hv' : IsView v) (h : Fit T Z v u) (h' : Fit T Z v w) (e : SamePartition u w) :
    joint u = joint w := by
  unfold joint
  rw [score_same h.reg h'.reg h.isView h'.isView (SameContents.between h.contents h'.contents (h.cover hv hv')) e]

theorem joint_ne (h : Fit T Z v u) : joint u ≠ 0 ∧ joint u ≠ ⊤ := by
  obtain ⟨y, hy⟩ := view_scored h.reg h.isView
  unfold joint
  rw [hy]
  exact ⟨by rw [Ne, ENNReal.ofReal_eq_zero, not_le]; exact Real.exp_pos _, ENNReal.ofReal_ne_top⟩

theorem sum_getD (l : List Int) (f : Int → ENNReal) : ∑ i ∈ Finset.range l.length, f (l.getD i 0) = (l.map f).sum := by
  induction l with
  | nil => rfl
  | cons a l ih =>
    rw [List.length_cons, Finset.sum_range_succ', List.map_cons, List.sum_cons, add_comm]
    exact congrArg (f a + ·) ih

theorem Step.total (hv : (cgpmTab Z 2).Reg v) (hv' : IsView v) {vs : List View} (hvs : Reps T Z v vs)
    (h : Fit T Z v u) (hr : Mates u r r) (st : Step Z u r supp s x y) (hs : ∀ k ∈ supp, Fit T Z v (s k))
    {F : View → ENNReal} (hF : ClassFn (Fit T Z v) SamePartition F) :
    haveI := Classical.propDecidable
    (supp.map fun k => joint (s k) * F (s k)).sum = (vs.map fun w => if SameApart r u w then joint w * F w else 0).sum := by
  classical
  have he : ∀ k ∈ supp, ∃ w ∈ vs, SamePartition (s k) w := fun k hk => hvs.all _ (hs k hk)
  have : Nonempty View := ⟨v⟩
  choose! e he1 he2 using he
  rw [← List.sum_toFinset _ st.nodup, ← List.sum_toFinset _ hvs.nodup, ← Finset.sum_filter]
  refine Finset.sum_bij (fun k _ => e k) (fun k hk => ?_) (fun k hk j hj hkj => ?_) (fun w hw => ?_) fun k hk => ?_
  · rw [List.mem_toFinset] at hk
    rw [Finset.mem_filter, List.mem_toFinset]
    exact ⟨he1 k hk, SameApart.trans' (st.apart h.reg hr hk) (SamePartition.apart (he2 k hk) r)⟩
  · rw [List.mem_toFinset] at hk hj
    refine st.inj hk hj (SamePartition.trans' (he2 k hk) ?_)
    rw [hkj]
    exact SamePartition.symm' (he2 j hj)
  · rw [Finset.mem_filter, List.mem_toFinset] at hw
    obtain ⟨k, hk, hkw⟩ := st.cover h.reg hr hw.2
    exact ⟨k, List.mem_toFinset.2 hk, hvs.eq (he1 k hk) hw.1 (SamePartition.trans' (SamePartition.symm' (he2 k hk)) hkw)⟩
  · rw [List.mem_toFinset] at hk
    rw [joint_same hv hv' (hs k hk) (hvs.each _ (he1 k hk)) (he2 k hk), hF _ _ (hs k hk) (hvs.each _ (he1 k hk)) (he2 k hk)]

theorem Step.share (st : Step Z u r supp s x y) (F : View → ENNReal) :
    ∑ i ∈ Finset.range supp.length, ENNReal.ofReal (Real.exp (x (supp.getD i 0)) /
        (supp.map fun k => Real.exp (x k)).sum) * F (s (supp.getD i 0)) =
      (supp.map fun k => joint (s k) * F (s k)).sum / (supp.map fun k => joint (s k)).sum := by
  have hpos : 0 < (supp.map fun k => Real.exp (x k)).sum := by
    refine List.sum_pos _ (fun p hp => ?_) (by simpa using st.ne)
    obtain ⟨k, -, rfl⟩ := List.mem_map.1 hp
    exact Real.exp_pos _
  have hj : ∀ k ∈ supp, joint (s k) = ENNReal.ofReal (Real.exp y) * ENNReal.ofReal (Real.exp (x k)) := fun k hk => by
    unfold joint
    rw [st.score k hk]
    dsimp only
    rw [Real.exp_add, ENNReal.ofReal_mul (Real.exp_pos _).le]
  have h0 : ENNReal.ofReal (Real.exp y) ≠ 0 := by
    rw [Ne, ENNReal.ofReal_eq_zero, not_le]
    exact Real.exp_pos _
  have hsum : ENNReal.ofReal (supp.map fun k => Real.exp (x k)).sum = (supp.map fun k => ENNReal.ofReal (Real.exp (x k))).sum := by
    clear hj st hpos
    induction supp with
    | nil => simp
    | cons a l ih =>
      rw [List.map_cons, List.sum_cons, ENNReal.ofReal_add (Real.exp_pos _).le (List.sum_nonneg (by
        intro p hp; obtain ⟨k, -, rfl⟩ := List.mem_map.1 hp; exact (Real.exp_pos _).le)), ih]
      simp
  rw [sum_getD supp fun k => ENNReal.ofReal (Real.exp (x k) / (supp.map fun k => Real.exp (x k)).sum) * F (s k)]
  rw [List.map_congr_left (f := fun k => joint (s k) * F (s k)) (g := fun k => ENNReal.ofReal (Real.exp y) * (ENNReal.ofReal (Real.exp (x k)) * F (s k)))
    (fun k hk => by rw [hj k hk, mul_assoc]), List.map_congr_left hj, List.sum_map_mul_left, List.sum_map_mul_left,
    ENNReal.mul_div_mul_left _ _ h0 ENNReal.ofReal_ne_top, ← hsum, ENNReal.div_eq_inv_mul, ← List.sum_map_mul_left]
  congr 1
  refine List.map_congr_left fun k _ => ?_
  rw [ENNReal.ofReal_div_of_pos hpos, ENNReal.div_eq_inv_mul, mul_assoc]

end

/-- What the lemmas about the steps need. -/
structure Stage (T : View → Prop) (Z : List Var) (v : View) (vs : List View) : Prop where
  reg : (cgpmTab Z 2).Reg v
  isView : IsView v
  columns : ∀ o ∈ viewColumns v, o ∉ Z
  known : FullyKnown v
  reps : Reps T Z v vs
  closed : ∀ u r g u' g', T u → transitionRows (cgpmI 1) r (u, g) = (.ok (), (u', g')) → T u'

theorem Stage.step {vs : List View} (hs : Stage T Z v vs) (h : Fit T Z v u) {r : RowId} (hr : Mates v r r) :
    ∃ supp s x y, Step Z u r supp s x y :=
  step_of h.reg h.isView (fun o ho => hs.columns o (h.contents.columns.mem_iff.1 ho))
    (h.steady hs.reg hs.isView hs.columns hs.known) ((present_mates h.reg h.isView r).2 ((h.rows r).1 hr))

theorem Stage.fit (hμ : IsDraw μ) {vs : List View} (hs : Stage T Z v vs) (h : Fit T Z v u) {r : RowId} (hr : Mates v r r)
    {supp : List Int} {s : Int → View} {x : Int → ℝ} {y : ℝ} (st : Step Z u r supp s x y) : ∀ k ∈ supp, Fit T Z v (s k) :=
  fun k hk => by
    obtain ⟨g, g', hg⟩ := st.reached hμ hk
    exact st.fit hs.columns h ((h.rows r).1 hr) hk (hs.closed _ _ _ _ _ h.side hg)

theorem row_kernel (hμ : IsDraw μ) {vs : List View} (hs : Stage T Z v vs) {r : RowId} (hr : Mates v r r) :
    Kernel μ (Fit T Z v) SamePartition (transitionRows (cgpmI 1) r : Py (View × Rng) Unit)
      (resample vs joint (SameApart r)) where
  good u hu g a u' g' e := by
    obtain ⟨supp, s, x, y, st⟩ := hs.step hu hr
    obtain ⟨i, g'', -, hi, h1⟩ := st.run g
    have h1 := h1.symm.trans e
    cases h1
    refine hs.fit hμ hu hr st _ ?_
    rw [List.getD_eq_getElem?_getD, List.getElem?_eq_getElem hi]
    exact List.getElem_mem hi
  law u hu Φ F hΦ hF := by
    classical
    obtain ⟨supp, s, x, y, st⟩ := hs.step hu hr
    have hfit := hs.fit hμ hu hr st
    obtain ⟨h1, h2⟩ := st.law hμ (Φ := Φ) fun k hk => (hΦ _ (hfit k hk)).1
    refine ⟨h1, h2.trans ?_⟩
    rw [st.share fun w => Pr μ (Φ w)]
    unfold resample
    have hmu := (hu.rows r).1 hr
    have e1 := st.total hs.reg hs.isView hs.reps hu hmu hfit hF
    have e2 := st.total hs.reg hs.isView hs.reps hu hmu hfit (F := fun _ => 1) fun _ _ _ _ _ => rfl
    simp only [mul_one] at e2
    rw [← e1, ← e2]
    congr 2
    exact List.map_congr_left fun k hk => by rw [(hΦ _ (hfit k hk)).2]
  cls F hF u w hu hw e := resample_congr (fun x _ =>
    ⟨fun h => SameApart.trans' (SamePartition.apart (SamePartition.symm' e) r) h,
      fun h => SameApart.trans' (SamePartition.apart e r) h⟩) F

theorem row_keeps {vs : List View} (hs : Stage T Z v vs) (r : RowId) :
    Keeps (Fit T Z v) SamePartition vs joint (resample vs joint (SameApart r)) :=
  keeps_resample (fun _ _ => ⟨fun _ => Iff.rfl, fun _ _ _ _ => Iff.rfl⟩) (fun _ _ _ _ h => SameApart.symm' h)
    (fun _ _ _ _ _ _ h h' => SameApart.trans' h h') (fun u hu => (joint_ne (hs.reps.each u hu)).1)
    fun u hu => (joint_ne (hs.reps.each u hu)).2

end Cgpm2.Views
