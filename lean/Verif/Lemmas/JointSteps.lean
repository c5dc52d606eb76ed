import Verif.Lemmas.JointCrosscat
import Verif.Lemmas.RowStep
import Verif.Lemmas.ExportState

/-!
# What a kernel of a CrossCat can settle (helpers)
-/

namespace Cgpm2.Views
open Spec Cpp MeasureTheory

variable {μ : Measure Draw} [IsProbabilityMeasure μ] {Z : List Var} {grids : Dict (Option Var) (Dict String (List ℝ))}
  {x0 x x' : Crosscat} {v0 u w : View} {i : Nat} {o : Var}

/-! ## One view -/

/-- The views agree on the clusters, or on the hyperparameters of a column. -/
def AgreeV : Option Var → View → View → Prop
  | none, u, w => SamePartition u w
  | some o, u, w => hypersAt u o = hypersAt w o

theorem agreeV_same {b : Option Var} {v : View} (h : AgreeV b u w) (e : SameState u v) : AgreeV b v w := by
  cases b with
  | none => exact SamePartition.trans' (SamePartition.symm' e.1) h
  | some o => exact (e.2 o).symm.trans h

theorem agreeV_left {b : Option Var} {v : View} (h : AgreeV b u w) (e : SameState u v) : AgreeV b w v := by
  cases b with
  | none => exact SamePartition.trans' (SamePartition.symm' h) e.1
  | some o => exact h.symm.trans (e.2 o)

/-- From any state the kernel can reach one which agrees with `w` on `L` and where it did before. -/
def SettlesV (Z : List Var) (grids : Dict (Option Var) (Dict String (List ℝ))) (v0 : View)
    (K : List View → View → (View → ENNReal) → ENNReal) (L : Option Var → Prop) : Prop :=
  ∀ vs, Classes (Variant Z grids v0) SameState vs → ∀ w, Variant Z grids v0 w → ∀ u, Variant Z grids v0 u →
    ∃ y ∈ vs, (∀ b, AgreeV b u w ∨ L b → AgreeV b y w) ∧ K vs u (ind SameState y) ≠ 0

theorem mixed (B : Ground Z grids v0) (hu : Variant Z grids v0 u) (hw : Variant Z grids v0 w) :
    ∃ y, Variant Z grids v0 y ∧ SamePartition y w ∧ ∀ o, hypersAt y o = hypersAt u o := by
  have key : ∀ l : List Var, (∀ o ∈ l, o ∈ (cgpmI 2).outputs v0) → ∃ y, Variant Z grids v0 y ∧ SamePartition y w ∧
      ∀ o ∈ l, hypersAt y o = hypersAt u o := by
    intro l
    induction l with
    | nil => exact fun _ => ⟨w, hw, fun _ _ => Iff.rfl, by simp⟩
    | cons a l ih =>
      intro hl
      obtain ⟨y, h1, h2, h3⟩ := ih fun o ho => hl o (List.mem_cons_of_mem _ ho)
      obtain ⟨k, grid, hc⟩ := B.column (hl a List.mem_cons_self)
      obtain ⟨e1, e2⟩ := hu.hypersOf hc
      refine ⟨tuned a (hypersOf a u) y, h1.tuned hc e2, SamePartition.trans' (SamePartition.symm'
        (tuned_partition (tidy_reg h1.tidy) (h1.mem hc))) h2, fun o ho => ?_⟩
      rw [h1.hypersAt_tuned hc e2]
      by_cases e : o = a
      · rw [if_pos e, e, e1]
      · rw [if_neg e]
        exact h3 o ((List.mem_cons.1 ho).resolve_left e)
  obtain ⟨y, h1, h2, h3⟩ := key _ fun o ho => ho
  refine ⟨y, h1, h2, fun o => ?_⟩
  by_cases ho : o ∈ (cgpmI 2).outputs v0
  · exact h3 o ho
  · rw [hypersAt_none (tidy_reg h1.tidy) (by rw [h1.outputs]; exact ho), hypersAt_none (tidy_reg hu.tidy) (by rw [hu.outputs]; exact ho)]

theorem rows_settle (hμ : IsDraw μ) (B : Ground Z grids v0) {l : List RowId} (hn : l.Nodup) (hl : ∀ r, r ∈ l ↔ Mates v0 r r) :
    SettlesV Z grids v0 (rowsKernel Z v0 l) (· = none) := by
  intro vs hvs w hw u hu
  obtain ⟨y0, h1, h2, h3⟩ := mixed B hu hw
  obtain ⟨y, hy, e⟩ := hvs.all y0 h1
  refine ⟨y, hy, fun b hb => agreeV_same (u := y0) ?_ e, row_reach hμ B hvs hn hl hu hy fun o => (e.2 o).symm.trans (h3 o)⟩
  cases b with
  | none => exact h2
  | some o => exact (h3 o).trans (hb.resolve_right (by simp))

theorem column_settle (hμ : IsDraw μ) (B : Ground Z grids v0) {k : Prim.Kind} {grid : Dict String (List ℝ)}
    (hc : Column grids v0 o k grid) : SettlesV Z grids v0 (fun _ => columnKernel grid o) (· = some o) := by
  intro vs hvs w hw u hu
  obtain ⟨e1, e2⟩ := hw.hypersOf hc
  have h1 := hu.tuned hc e2
  have h2 := tuned_partition (h := hypersOf o w) (tidy_reg hu.tidy) (hu.mem hc)
  have h3 := fun o' => hu.hypersAt_tuned hc e2 o'
  obtain ⟨y, hy, e⟩ := hvs.all _ h1
  refine ⟨y, hy, fun b hb => agreeV_same ?_ e, hyper_reach hμ B hvs hc hu hy
    (SamePartition.trans' (SamePartition.symm' e.1) (SamePartition.symm' h2)) fun o' ho' => ?_⟩
  · cases b with
    | none => exact SamePartition.trans' (SamePartition.symm' h2) (hb.resolve_right (by simp))
    | some o' =>
      change hypersAt _ o' = _
      rw [h3 o']
      by_cases e : o' = o
      · rw [if_pos e, e, e1]
      · rw [if_neg e]
        exact hb.resolve_right fun h => e (Option.some.inj h)
  · rw [← e.2 o', h3 o', if_neg ho']

/-! ## All views -/

/-- The states agree on the clusters of a view, or on the hyperparameters of one of its columns. -/
def Agree (b : Nat × Option Var) (s w : Gibbs) : Prop :=
  ∀ u v, s.crosscat.cgpms[b.1]? = some u → w.crosscat.cgpms[b.1]? = some v → AgreeV b.2 u v

theorem agree_same {b : Nat × Option Var} {s t w : Gibbs} (h : Agree b s w) (e : HeldSame s t) : Agree b t w := by
  intro u v hu hv
  obtain ⟨u', hu', e'⟩ := forall₂_get (sameStates_symm e) hu
  exact agreeV_same (h u' v hu' hv) (SameState.symm' e')

theorem agree_all {s w : Gibbs} (hs : Held Z grids x0 s) (hw : Held Z grids x0 w)
    (ha : ∀ i v, x0.cgpms[i]? = some v → Agree (i, none) s w ∧ ∀ o ∈ (cgpmI 2).outputs v, Agree (i, some o) s w) : HeldSame s w := by
  refine forall₂_of_get (hs.1.length_eq.symm.trans hw.1.length_eq) fun i a b hi hb => ?_
  obtain ⟨v, hv, h1⟩ := forall₂_get hs.1.flip hi
  have h1 : Variant Z grids v a := h1
  obtain ⟨v', hv', h2⟩ := forall₂_get hw.1.flip hb
  rw [hv] at hv'
  cases hv'
  have h2 : Variant Z grids v b := h2
  obtain ⟨h3, h4⟩ := ha i v hv
  refine ⟨h3 a b hi hb, fun o => ?_⟩
  by_cases ho : o ∈ (cgpmI 2).outputs v
  · exact h4 o ho a b hi hb
  · rw [hypersAt_none (tidy_reg h1.tidy) (by rw [h1.outputs]; exact ho), hypersAt_none (tidy_reg h2.tidy) (by rw [h2.outputs]; exact ho)]

/-- From any state the kernel can reach one which agrees with `w` on `L` and where it did before. -/
def Settles (Z : List Var) (grids : Dict (Option Var) (Dict String (List ℝ))) (x0 : Crosscat) (vs : List Gibbs)
    (K : Gibbs → (Gibbs → ENNReal) → ENNReal) (L : Nat × Option Var → Prop) : Prop :=
  ∀ w, Held Z grids x0 w → ∀ s, Held Z grids x0 s →
    ∃ y ∈ vs, (∀ b, Agree b s w ∨ L b → Agree b y w) ∧ K s (ind HeldSame y) ≠ 0

/-- The call keeps the joint posterior; if `full`, it can settle `L`. -/
def Turn (μ : Measure Draw) [IsProbabilityMeasure μ] (Z : List Var) (grids : Dict (Option Var) (Dict String (List ℝ)))
    (x0 : Crosscat) (full : Prop) (m : Py (Gibbs × Rng) Unit) (L : Nat × Option Var → Prop) : Prop :=
  ∃ K, Move μ (Held Z grids x0) HeldSame (heldWeight grids) m K ∧
    (full → ∀ vs, Classes (Held Z grids x0) HeldSame vs → Settles Z grids x0 vs (K vs) L)

variable {full : Prop}

theorem settles_id {vs : List Gibbs} (hvs : Classes (Held Z grids x0) HeldSame vs) :
    Settles Z grids x0 vs (fun s F => F s) fun _ => False := by
  intro w _ s hs
  obtain ⟨y, hy, e⟩ := hvs.all s hs
  exact ⟨y, hy, fun b hb => agree_same (hb.resolve_right id) e, by unfold ind; simp [e]⟩

theorem settles_comp {vs : List Gibbs} {K K' : Gibbs → (Gibbs → ENNReal) → ENNReal} {L L' : Nat × Option Var → Prop}
    (hvs : Classes (Held Z grids x0) HeldSame vs) (hl : Linear (Held Z grids x0) HeldSame vs K)
    (hk : ∀ F, ClassFn (Held Z grids x0) HeldSame F → ClassFn (Held Z grids x0) HeldSame fun s => K' s F)
    (h : Settles Z grids x0 vs K L) (h' : Settles Z grids x0 vs K' L') :
    Settles Z grids x0 vs (fun s F => K s fun t => K' t F) fun b => L b ∨ L' b := by
  intro w hw s hs
  obtain ⟨t, ht, h1, h2⟩ := h w hw s hs
  obtain ⟨y, hy, h3, h4⟩ := h' w hw t (hvs.each t ht)
  refine ⟨y, hy, fun b hb => h3 b ?_, ?_⟩
  · rcases hb with hb | hb | hb
    · exact .inl (h1 b (.inl hb))
    · exact .inl (h1 b (.inr hb))
    · exact .inr hb
  · dsimp only
    rw [hl s hs _ (hk _ (hvs.classFn y))]
    exact sum_ne_zero ht (mul_ne_zero h2 h4)

theorem Turn.mono {m : Py (Gibbs × Rng) Unit} {L L' : Nat × Option Var → Prop} (h : Turn μ Z grids x0 full m L)
    (hL : ∀ b, L' b → L b) : Turn μ Z grids x0 full m L' := by
  obtain ⟨K, h1, h2⟩ := h
  refine ⟨K, h1, fun hf vs hvs w hw s hs => ?_⟩
  obtain ⟨y, hy, h3, h4⟩ := h2 hf vs hvs w hw s hs
  exact ⟨y, hy, fun b hb => h3 b (hb.imp_right (hL b)), h4⟩

theorem Turn.same {m m' : Py (Gibbs × Rng) Unit} {L : Nat × Option Var → Prop} (h : Turn μ Z grids x0 full m L)
    (e : ∀ s, Held Z grids x0 s → ∀ g, m' (s, g) = m (s, g)) : Turn μ Z grids x0 full m' L := by
  obtain ⟨K, h1, h2⟩ := h
  exact ⟨K, h1.same e, h2⟩

theorem Turn.forEach {B : Type} {f : B → Py (Gibbs × Rng) Unit} {L : B → Nat × Option Var → Prop} {l : List B}
    (h : ∀ b ∈ l, Turn μ Z grids x0 full (f b) (L b)) :
    Turn μ Z grids x0 full (Gibbs.forEach l f) fun c => ∃ b ∈ l, L b c := by
  have : ∀ b, ∃ K, b ∈ l → Move μ (Held Z grids x0) HeldSame (heldWeight grids) (f b) K ∧
      (full → ∀ vs, Classes (Held Z grids x0) HeldSame vs → Settles Z grids x0 vs (K vs) (L b)) := fun b => by
    by_cases hb : b ∈ l
    · obtain ⟨K, hK⟩ := h b hb
      exact ⟨K, fun _ => hK⟩
    · exact ⟨fun _ _ _ => 0, fun h => absurd h hb⟩
  choose K hK using this
  refine ⟨_, (Move.mapL fun b hb => (hK b hb).1).drop, fun hf vs hvs => ?_⟩
  clear h
  induction l with
  | nil =>
    intro w hw s hs
    obtain ⟨y, hy, h1, h2⟩ := settles_id hvs w hw s hs
    exact ⟨y, hy, fun b hb => h1 b (hb.imp_right fun ⟨_, h, _⟩ => by cases h), h2⟩
  | cons a l ih =>
    have hl := (Linear.kernels (K := fun b => K b vs) (l := l) hvs (fun b hb => (hK b (List.mem_cons_of_mem _ hb)).1.linear vs hvs)
      fun b hb => ((hK b (List.mem_cons_of_mem _ hb)).1.kernel vs hvs).cls).2
    intro w hw s hs
    obtain ⟨y, hy, h1, h2⟩ := settles_comp hvs ((hK a List.mem_cons_self).1.linear vs hvs) hl
      ((hK a List.mem_cons_self).2 hf vs hvs) (ih fun b hb => hK b (List.mem_cons_of_mem _ hb)) w hw s hs
    refine ⟨y, hy, fun b hb => h1 b (hb.imp_right ?_), h2⟩
    rintro ⟨c, hc, hL⟩
    rcases List.mem_cons.1 hc with rfl | hc
    · exact .inl hL
    · exact .inr ⟨c, hc, hL⟩

theorem step_pure : Turn μ Z grids x0 full (pure ()) fun _ => False := by
  have := Turn.forEach (μ := μ) (Z := Z) (grids := grids) (x0 := x0) (full := full) (l := ([] : List Unit))
    (f := fun _ => pure ()) (L := fun _ _ => False) fun b hb => by cases hb
  exact (this.same fun s _ g => rfl).mono fun b hb => hb.elim

theorem view_settles (hi : x0.cgpms[i]? = some v0) {α : Type} {mV : Py (View × Rng) α}
    {KV : List View → View → (View → ENNReal) → ENNReal} (hm : Move μ (Variant Z grids v0) SameState (viewWeight grids) mV KV)
    {LV : Option Var → Prop} (hL : SettlesV Z grids v0 KV LV) {vs : List Gibbs} (hvs : Classes (Held Z grids x0) HeldSame vs) :
    Settles Z grids x0 vs (viewKernel Z grids v0 i KV vs) fun b => b.1 = i ∧ LV b.2 := by
  classical
  intro w hw s hs
  have L := view_lens (Z := Z) (grids := grids) hi
  have hcl := L.classes hvs hs
  obtain ⟨hs1, hs2⟩ := viewAt_eq hi hs
  obtain ⟨hw1, hw2⟩ := viewAt_eq hi hw
  have hlt := (List.getElem?_eq_some_iff.1 hs1).1
  obtain ⟨y, hy, h1, h2⟩ := hL _ hcl _ hw2 _ hs2
  have hyv := hcl.each y hy
  obtain ⟨t, ht, e⟩ := hvs.all _ (L.good s y hs hyv)
  refine ⟨t, ht, fun b hb => agree_same (s := withView i s y) ?_ e, ?_⟩
  · intro a c ha hc
    by_cases hbi : b.1 = i
    · have ha : (s.crosscat.cgpms.set i y)[b.1]? = some a := ha
      rw [hbi, List.getElem?_set_self hlt] at ha
      rw [hbi, hw1] at hc
      cases ha
      cases hc
      refine h1 b.2 (hb.imp (fun hb => hb _ _ ?_ ?_) fun hb => hb.2)
      · rw [hbi]; exact hs1
      · rw [hbi]; exact hw1
    · have ha : (s.crosscat.cgpms.set i y)[b.1]? = some a := ha
      rw [List.getElem?_set_ne (Ne.symm hbi)] at ha
      exact hb.resolve_right (fun h => hbi h.1) a c ha hc
  · unfold viewKernel
    rw [hm.only hcl hs2 (L.part_classFn hvs hs (hvs.classFn t)) (hcl.classFn y) fun v hv => ?_]
    · exact h2
    · have : HeldSame (withView i s v) t ↔ SameState v y := by
        constructor
        · intro h
          have h' := L.same _ _ (L.good s v hs hv) (L.good s y hs hyv) (hvs.trans _ _ _ h (hvs.symm _ _ e))
          exact SameState.trans' (SameState.symm' (L.get_put s v hs hv)) (SameState.trans' h' (L.get_put s y hs hyv))
        · intro h
          exact hvs.trans _ _ _ (L.congr s s v y hs hs (hvs.refl s) hv hyv h) e
      unfold ind
      simp only [this]

/-! ## The kernels -/

theorem column_step (hμ : IsDraw μ) (h : Samplable Z grids x0) (hi : x0.cgpms[i]? = some v0) (ho : o ∈ (cgpmI 2).outputs v0)
    {key : Option Var} (hk : key = if o = ((cgpmI 2).outputs v0).headD 0 then none else some o) :
    Turn μ Z grids x0 full (Gibbs.transitionColumn key o) fun b => b = (i, some o) := by
  have B := samplable_ground h (List.mem_of_getElem? hi)
  obtain ⟨k, grid, hc⟩ := B.column ho
  refine Turn.mono ⟨_, column_move hμ h hi hc (key := key) (by rw [hk]; exact hc.found), fun _ vs hvs =>
    view_settles hi (hyper_move hμ B hc) (column_settle hμ B hc) hvs⟩ fun b hb => ?_
  rw [hb]
  exact ⟨rfl, rfl⟩

theorem rows_step (hμ : IsDraw μ) (h : Samplable Z grids x0) (hi : x0.cgpms[i]? = some v0) (rowids : List RowId) :
    Turn μ Z grids x0 (rowids = []) (Gibbs.onCrosscat (onView i (Gibbs.transitionViewRows rowids))) fun b => b = (i, none) := by
  have B := samplable_ground h (List.mem_of_getElem? hi)
  obtain ⟨l, -, h2, h3⟩ := rows_visited (tidy_reg B.tidy) B.isView rowids
  refine Turn.mono ⟨_, rows_move hμ h hi h2 h3, fun hr vs hvs => ?_⟩ (L := fun b => b.1 = i ∧ b.2 = none) fun b hb => ?_
  · refine view_settles hi (row_move hμ B h2 h3) (rows_settle hμ B h2 fun r => (h3 r).trans ?_) hvs
    simp [hr]
  · rw [hb]
    exact ⟨rfl, rfl⟩

theorem viewIndex_congr (e : x.cgpms.map (cgpmI 2).outputs = x'.cgpms.map (cgpmI 2).outputs) (l : List Var) :
    viewIndex x l = viewIndex x' l := by
  have key : ∀ (y : Crosscat) (o : Var), (y.cgpms.zipIdx.filter fun vi => decide (o ∈ (cgpmI 2).outputs vi.1)).map Prod.snd =
      ((y.cgpms.map (cgpmI 2).outputs).zipIdx.filter fun li => decide (o ∈ li.1)).map Prod.snd := fun y o => by
    rw [List.zipIdx_map, List.filter_map, List.map_map]
    rfl
  unfold viewIndex
  simp only [key, e]

theorem distributionOutputs_congr (e : x.cgpms.map (cgpmI 2).outputs = x'.cgpms.map (cgpmI 2).outputs) :
    distributionOutputs x = distributionOutputs x' := by
  have := congrArg (List.flatMap List.tail) e
  rw [List.flatMap_map, List.flatMap_map] at this
  exact this

theorem orAll_congr (e : x.cgpms.map (cgpmI 2).outputs = x'.cgpms.map (cgpmI 2).outputs) (outputs : Option (List Var)) :
    orAll x outputs = orAll x' outputs := by
  unfold orAll
  rw [distributionOutputs_congr e]

theorem rowMixtureIndexes_congr (ord : Orders) (e : x.cgpms.map (cgpmI 2).outputs = x'.cgpms.map (cgpmI 2).outputs)
    (outputs : Option (List Var)) : rowMixtureIndexes ord x outputs = rowMixtureIndexes ord x' outputs := by
  unfold rowMixtureIndexes
  rw [orAll_congr e]
  simp only [viewIndex_congr e]

/-- The cluster variable of a view. -/
noncomputable def clusterVar (x : Crosscat) (i : Nat) : Var := (((x.cgpms.map (cgpmI 2).outputs)[i]?).getD []).headD 0

theorem rowDivideOutputs_eq {ord : Orders} {outputs : Option (List Var)} {l : List Nat}
    (hl : rowMixtureIndexes ord x outputs = .ok l) (hlt : ∀ i ∈ l, i < x.cgpms.length) :
    rowDivideOutputs ord x outputs = .ok (l.map (clusterVar x)) := by
  obtain ⟨vs, h1, -⟩ := mapM_total (P := fun _ => True) (f := fun i => item x.cgpms i) (l := l) fun i hi => by
    refine ⟨x.cgpms[i]'(hlt i hi), ?_, trivial⟩
    unfold item
    rw [List.getElem?_eq_getElem (hlt i hi)]
  have h2 := mapM_ok_forall h1
  unfold rowDivideOutputs
  rw [hl]
  change (do
    let views ← l.mapM fun i => item x.cgpms i
    pure (views.map fun view => ((cgpmI 2).outputs view).headD 0)) = _
  rw [h1]
  change Except.ok (vs.map fun view => ((cgpmI 2).outputs view).headD 0) = Except.ok _
  congr 1
  clear h1 hl hlt
  induction h2 with
  | nil => rfl
  | @cons i v _ _ h3 _ ih =>
    rw [List.map_cons, List.map_cons, ih]
    congr 1
    unfold item at h3
    rcases e : x.cgpms[i]? with _ | a
    · rw [e] at h3; cases h3
    · rw [e] at h3
      cases h3
      unfold clusterVar
      rw [List.getElem?_map, e]
      rfl

theorem refs_mem (h : Samplable Z grids x0) {s : Gibbs} (hs : Held Z grids x0 s) (hi : x0.cgpms[i]? = some v0)
    (ho : o ∈ (cgpmI 2).outputs v0) : ∃ refs, columnRefs s.crosscat o = .ok refs := by
  obtain ⟨h1, h2⟩ := viewAt_eq hi hs
  have ho' : o ∈ (cgpmI 2).outputs (viewAt v0 i s) := by rw [h2.outputs]; exact ho
  obtain ⟨r, hr, -⟩ := (cgpm_walk Z 2 _ (tidy_reg h2.tidy)).walk o ho'
  exact ⟨_, columnRefs_view (variants_cc h hs.1).nodup h1 ho' hr⟩

theorem variants_self (h : Samplable Z grids x0) : CC Z x0 := by
  have hval : Product.validate (cgpmI 2) x0.cgpms = .ok () := by
    have := h.built
    unfold Product.init at this
    rcases hv : Product.validate (cgpmI 2) x0.cgpms with e | u
    · rw [hv] at this; cases this
    · rfl
  exact ⟨⟨fun c hc => tidy_reg (h.tidy c hc), hval, h.some⟩, h.views, h.columns⟩

theorem outputs_split (h : CC Z x0) (hi : x0.cgpms[i]? = some v0) :
    ∃ z l, (cgpmI 2).outputs v0 = z :: l ∧ viewColumns v0 = l ∧ z ∉ l := by
  have hv := List.mem_of_getElem? hi
  obtain ⟨m, p, hf⟩ := flat_of_reg (h.viewReg hv) (h.views v0 hv)
  have hn := (cgpmTLaws Z 2).nodup _ (h.viewReg hv)
  have ho := hf.outputs
  refine ⟨_, _, ho, ?_, ?_⟩
  · unfold viewColumns
    rw [ho]
    rfl
  · have hn : ((cgpmI 2).outputs v0).Nodup := hn
    rw [ho, List.nodup_cons] at hn
    exact hn.1

theorem at_unique (h : CC Z x0) {j : Nat} {v w : View} (hi : x0.cgpms[i]? = some v) (hj : x0.cgpms[j]? = some w)
    (ho : o ∈ (cgpmI 2).outputs v) (ho' : o ∈ (cgpmI 2).outputs w) : j = i := by
  have hp := (List.nodup_flatMap.1 h.nodup).2
  rw [List.pairwise_iff_getElem] at hp
  obtain ⟨hi1, rfl⟩ := List.getElem?_eq_some_iff.1 hi
  obtain ⟨hj1, rfl⟩ := List.getElem?_eq_some_iff.1 hj
  rcases lt_trichotomy i j with hlt | rfl | hlt
  · exact (hp i j hi1 hj1 hlt ho ho').elim
  · rfl
  · exact (hp j i hj1 hi1 hlt ho' ho).elim

theorem orAll_columns (outputs : Option (List Var)) (ho : ∀ o ∈ outputs.getD [], o ∈ columns x0) :
    ∀ o ∈ orAll x0 outputs, o ∈ columns x0 := orAll_mem (List.Perm.refl _) ho

theorem distributions_step (hμ : IsDraw μ) (h : Samplable Z grids x0) (ord : Orders) {outputs : Option (List Var)}
    (ho : ∀ o ∈ outputs.getD [], o ∈ columns x0) :
    Turn μ Z grids x0 full (Gibbs.transitionHypersDistributions ord outputs) fun b => ∃ o ∈ orAll x0 outputs, ∃ i v,
      x0.cgpms[i]? = some v ∧ o ∈ viewColumns v ∧ b = (i, some o) := by
  have hx := variants_self h
  have hall := orAll_columns outputs ho
  have loc : ∀ o ∈ orAll x0 outputs, ∃ i v, x0.cgpms[i]? = some v ∧ o ∈ viewColumns v := fun o h1 => by
    obtain ⟨v, hv, hov⟩ := mem_columns.1 (hall o h1)
    obtain ⟨i, hi⟩ := List.mem_iff_getElem?.1 hv
    exact ⟨i, v, hi, hov⟩
  have hsteps : ∀ o ∈ ord.cols (orAll x0 outputs), Turn μ Z grids x0 full (Gibbs.transitionColumn (some o) o) fun b =>
      ∃ i v, x0.cgpms[i]? = some v ∧ o ∈ viewColumns v ∧ b = (i, some o) := fun o h1 => by
    obtain ⟨i, v, hi, hov⟩ := loc o ((ord.cols_mem _ _).1 h1)
    obtain ⟨z, l, h2, h3, h4⟩ := outputs_split hx hi
    have h5 : o ≠ z := fun e => h4 (by rw [← e, ← h3]; exact hov)
    refine (column_step hμ h hi (o := o) (by rw [h2, ← h3]; exact List.mem_cons_of_mem _ hov)
      (by rw [h2, List.headD_cons, if_neg h5])).mono ?_
    rintro b ⟨j, v', hj, hov', rfl⟩
    rw [at_unique hx hi hj (by rw [h2, ← h3]; exact List.mem_cons_of_mem _ hov)
      (List.mem_of_mem_tail (by unfold viewColumns at hov'; exact hov'))]
  refine ((Turn.forEach hsteps).mono ?_).same fun s hs g => ?_
  · rintro b ⟨o, h1, h2⟩
    exact ⟨o, (ord.cols_mem _ _).2 h1, h2⟩
  · unfold Gibbs.transitionHypersDistributions
    rw [Py.get_bind]
    dsimp only
    rw [orAll_congr (variants_outputs hs.1), columnKeys_total fun o h1 => ?_, Py.lift_bind]
    obtain ⟨i, v, hi, hov⟩ := loc o h1
    exact refs_mem h hs hi (List.mem_of_mem_tail (by unfold viewColumns at hov; exact hov))

theorem clusterVar_eq (hi : x0.cgpms[i]? = some v0) : clusterVar x0 i = ((cgpmI 2).outputs v0).headD 0 := by
  unfold clusterVar
  rw [List.getElem?_map, hi]
  rfl

theorem rowDivide_step (hμ : IsDraw μ) (h : Samplable Z grids x0) (ord : Orders) {outputs : Option (List Var)} {idx : List Nat}
    (hidx : rowMixtureIndexes ord x0 outputs = .ok idx) (hlt : ∀ i ∈ idx, i < x0.cgpms.length) :
    Turn μ Z grids x0 full (Gibbs.transitionHypersRowDivide ord outputs) fun b => ∃ i ∈ idx, b = (i, some (clusterVar x0 i)) := by
  have hx := variants_self h
  have hmem : ∀ i ∈ idx, ∃ v, x0.cgpms[i]? = some v ∧ clusterVar x0 i ∈ (cgpmI 2).outputs v ∧
      clusterVar x0 i = ((cgpmI 2).outputs v).headD 0 := fun i h1 => by
    have hi := List.getElem?_eq_getElem (hlt i h1)
    obtain ⟨z, l, h2, -⟩ := outputs_split hx hi
    refine ⟨_, hi, ?_, clusterVar_eq hi⟩
    rw [clusterVar_eq hi, h2]
    exact List.mem_cons_self
  have hsteps : ∀ o ∈ ord.cols (idx.map (clusterVar x0)), Turn μ Z grids x0 full (Gibbs.transitionColumn none o) fun b =>
      ∃ i ∈ idx, clusterVar x0 i = o ∧ b = (i, some o) := fun o h1 => by
    obtain ⟨i, h2, e⟩ := List.mem_map.1 ((ord.cols_mem _ _).1 h1)
    obtain ⟨v, hi, hm, hz⟩ := hmem i h2
    rw [e] at hm hz
    refine (column_step hμ h hi (o := o) hm (by rw [if_pos hz])).mono ?_
    rintro b ⟨j, h3, e', rfl⟩
    obtain ⟨w, hj, hm', -⟩ := hmem j h3
    rw [e'] at hm'
    rw [at_unique hx hi hj hm hm']
  refine ((Turn.forEach hsteps).mono ?_).same fun s hs g => ?_
  · rintro b ⟨i, h1, rfl⟩
    exact ⟨clusterVar x0 i, (ord.cols_mem _ _).2 (List.mem_map_of_mem h1), i, h1, rfl, rfl⟩
  · have e := variants_outputs hs.1
    have hidx' : rowMixtureIndexes ord s.crosscat outputs = .ok idx := (rowMixtureIndexes_congr ord e outputs).trans hidx
    have hc : clusterVar s.crosscat = clusterVar x0 := by
      funext i
      unfold clusterVar
      rw [e]
    unfold Gibbs.transitionHypersRowDivide
    rw [Py.get_bind]
    dsimp only
    rw [rowDivideOutputs_eq hidx' (by rw [← hs.1.length_eq]; exact hlt), Py.lift_bind, hc]
    dsimp only
    rw [columnKeys_total fun o h1 => ?_, Py.lift_bind]
    obtain ⟨i, h2, rfl⟩ := List.mem_map.1 h1
    obtain ⟨v, hi, hm, -⟩ := hmem i h2
    exact refs_mem h hs hi hm

theorem assignments_step (hμ : IsDraw μ) (h : Samplable Z grids x0) (ord : Orders) {outputs : Option (List Var)} {idx : List Nat}
    (rowids : Option (List RowId)) (hidx : rowMixtureIndexes ord x0 outputs = .ok idx) (hlt : ∀ i ∈ idx, i < x0.cgpms.length) :
    Turn μ Z grids x0 (rowids.getD [] = []) (Gibbs.transitionRowAssignments ord outputs rowids) fun b => ∃ i ∈ idx, b = (i, none) := by
  refine Turn.same (Turn.forEach fun i h1 => rows_step hμ h (List.getElem?_eq_getElem (hlt i h1)) (rowids.getD [])) fun s hs g => ?_
  unfold Gibbs.transitionRowAssignments
  rw [Py.get_bind]
  dsimp only
  rw [rowMixtureIndexes_congr ord (variants_outputs hs.1), hidx, Py.lift_bind]

/-- Any list of kernels other than `view_assignments`. -/
theorem kernels_step (hμ : IsDraw μ) (h : Samplable Z grids x0) (ord : Orders) {outputs : Option (List Var)}
    (rowids : Option (List RowId)) (ho : ∀ o ∈ outputs.getD [], o ∈ columns x0) {k : String}
    (hk : k ∈ ["hypers_distributions", "hypers_row_divide", "hypers_column_divide", "row_assignments"]) :
    ∃ m L, Dict.getItem (Gibbs.kernelLookup ord outputs rowids) k = .ok m ∧ Turn μ Z grids x0 (rowids.getD [] = []) m L ∧
      (outputs.getD [] = [] → ∀ i v, x0.cgpms[i]? = some v →
        (k = "hypers_distributions" → ∀ o ∈ viewColumns v, L (i, some o)) ∧
        (k = "hypers_row_divide" → L (i, some (((cgpmI 2).outputs v).headD 0))) ∧
        (k = "row_assignments" → L (i, none))) := by
  have hx := variants_self h
  obtain ⟨idx, hidx, hlt, -⟩ := indexes_total hx ord ho
  have hall : outputs.getD [] = [] → orAll x0 outputs = columns x0 := fun e => by
    rcases outputs with _ | _ | ⟨a, l⟩
    · rfl
    · rfl
    · cases e
  have hcover : outputs.getD [] = [] → ∀ i v, x0.cgpms[i]? = some v → i ∈ idx := fun e i v hi => by
    obtain ⟨z, l, h2, h3, h4⟩ := outputs_split hx hi
    obtain ⟨o, hov⟩ := List.exists_mem_of_ne_nil _ (hx.nonempty (List.mem_of_getElem? hi))
    have hoc : o ∈ columns x0 := mem_columns.2 ⟨v, List.mem_of_getElem? hi, hov⟩
    obtain ⟨j, hj, w, hjw, how⟩ := viewIndex_eq hx hoc
    have hji : j = i := at_unique hx hi hjw (List.mem_of_mem_tail (by unfold viewColumns at hov; exact hov))
      (List.mem_of_mem_tail (by unfold viewColumns at how; exact how))
    subst hji
    unfold rowMixtureIndexes at hidx
    rcases hm : (orAll x0 outputs).mapM fun output => viewIndex x0 [output] with er | js
    · rw [hm] at hidx; cases hidx
    · rw [hm] at hidx
      have hidx : Except.ok (ord.views js) = Except.ok idx := hidx
      cases hidx
      rw [ord.views_mem]
      obtain ⟨n, hn⟩ := List.mem_iff_getElem?.1 (by rw [hall e]; exact hoc : o ∈ orAll x0 outputs)
      obtain ⟨j', h5, h6⟩ := forall₂_get (mapM_ok_forall hm) hn
      rw [hj] at h6
      cases h6
      exact List.mem_of_getElem? h5
  simp only [List.mem_cons, List.not_mem_nil, or_false] at hk
  rcases hk with rfl | rfl | rfl | rfl
  · refine ⟨_, _, rfl, distributions_step hμ h ord ho, fun e i v hi => ⟨fun _ o hov => ?_, by simp, by simp⟩⟩
    exact ⟨o, by rw [hall e]; exact mem_columns.2 ⟨v, List.mem_of_getElem? hi, hov⟩, i, v, hi, hov, rfl⟩
  · refine ⟨_, _, rfl, rowDivide_step hμ h ord hidx hlt, fun e i v hi => ⟨by simp, fun _ => ?_, by simp⟩⟩
    exact ⟨i, hcover e i v hi, by rw [clusterVar_eq hi]⟩
  · exact ⟨_, _, rfl, step_pure, fun e i v hi => ⟨by simp, by simp, by simp⟩⟩
  · refine ⟨_, _, rfl, assignments_step hμ h ord rowids hidx hlt, fun e i v hi => ⟨by simp, by simp, fun _ => ?_⟩⟩
    exact ⟨i, hcover e i v hi, rfl⟩

end Cgpm2.Views
