import Verif.Lemmas.RowKernel

/-!
# A sweep over the rows of a view (helpers)
-/

namespace Cgpm2.Views
open Spec Cpp MeasureTheory

variable {Z : List Var} {v u w : View} {T : View → Prop} {μ : Measure Draw} [IsProbabilityMeasure μ]

/-! ## One representative for each class -/

theorem mates_finite (h : (cgpmTab Z 2).Reg v) (hv : IsView v) :
    ∃ rows : List RowId, rows.Nodup ∧ ∀ r, Mates v r r ↔ r ∈ rows := by
  obtain ⟨m, p, hf⟩ := flat_of_reg h hv
  have hd : Node.rowDivide v = some m.rowDivide := by rw [hf.eq]; rfl
  obtain ⟨hG, -, -, hdata⟩ := reg_rowDivide (n := 1) h hd
  refine ⟨Dict.keys m.rowDivide.data, hG.1.nodup, fun r => ?_⟩
  rw [← present_mates h hv, present_cluster h hv, clusterOf_eq Z, hf.outputs, List.headD_cons, ← hdata r _ hf.out, Ne,
    Dict.get?_eq_none_iff, not_not]

/-- The rows that a sweep visits. -/
theorem rows_visited (h : (cgpmTab Z 2).Reg u) (hu : IsView u) (rowids : List RowId) :
    ∃ l : List RowId, (∀ g, Gibbs.rowidsTransition rowids (u, g) = (.ok l, (u, g))) ∧ l.Nodup ∧
      ∀ r, r ∈ l ↔ Mates u r r ∧ (rowids = [] ∨ r ∈ rowids) := by
  obtain ⟨m, p, hf⟩ := flat_of_reg h hu
  have hd : Node.rowDivide u = some m.rowDivide := by rw [hf.eq]; rfl
  obtain ⟨hG, -, -, hdata⟩ := reg_rowDivide (n := 1) h hd
  have hk : ∀ r, r ∈ Dict.keys m.rowDivide.data ↔ Mates u r r := fun r => by
    rw [← present_mates h hu, present_cluster h hu, clusterOf_eq Z, hf.outputs, List.headD_cons, ← hdata r _ hf.out, Ne,
      Dict.get?_eq_none_iff, not_not]
  refine ⟨if rowids = [] then Dict.keys m.rowDivide.data else
      (Dict.keys m.rowDivide.data).filter fun r => decide (r ∈ rowids), fun g => ?_, ?_, fun r => ?_⟩
  · rw [hf.eq]
    rfl
  · split
    · exact hG.1.nodup
    · exact hG.1.nodup.filter _
  · split
    · next e => simp [hk, e]
    · next e => simp [hk, e]

theorem reps_exist (h : (cgpmTab Z 2).Reg v) (hv : IsView v) : ∃ vs, Reps T Z v vs := by
  classical
  obtain ⟨rows, -, hrows⟩ := mates_finite h hv
  let code : View → Finset (RowId × RowId) := fun u =>
    (rows.toFinset ×ˢ rows.toFinset).filter fun ab => Mates u ab.1 ab.2
  have hcode : ∀ u w, Fit T Z v u → Fit T Z v w → code u = code w → SamePartition u w := by
    intro u w hu hw e a b
    have key : ∀ x, Fit T Z v x → (Mates x a b ↔ (a, b) ∈ code x) := by
      intro x hx
      rw [Finset.mem_filter, Finset.mem_product, List.mem_toFinset, List.mem_toFinset]
      constructor
      · intro hm
        refine ⟨⟨(hrows _).1 ((hx.rows _).2 (Mates.trans' hm (Mates.symm' hm))),
          (hrows _).1 ((hx.rows _).2 (Mates.trans' (Mates.symm' hm) hm))⟩, hm⟩
      · exact fun h => h.2
    rw [key u hu, key w hw, e]
  have hfin : (code '' {u | Fit T Z v u}).Finite := by
    refine ((rows.toFinset ×ˢ rows.toFinset).powerset.finite_toSet).subset ?_
    rintro _ ⟨u, -, rfl⟩
    rw [Finset.mem_coe, Finset.mem_powerset]
    exact Finset.filter_subset _ _
  have hsec : ∀ c ∈ hfin.toFinset.toList, ∃ u, Fit T Z v u ∧ code u = c := by
    intro c hc
    rw [Finset.mem_toList, Set.Finite.mem_toFinset] at hc
    exact hc
  have : Nonempty View := ⟨v⟩
  choose! f hf1 hf2 using hsec
  refine ⟨hfin.toFinset.toList.map f, fun u hu => ?_, ?_, fun u hu => ?_⟩
  · obtain ⟨c, hc, rfl⟩ := List.mem_map.1 hu
    exact hf1 c hc
  · rw [List.pairwise_map]
    refine (hfin.toFinset.nodup_toList.imp_of_mem ?_)
    intro c d hc hd hne hsp
    refine hne ?_
    rw [← hf2 c hc, ← hf2 d hd]
    ext ab
    simp only [code, Finset.mem_filter, hsp ab.1 ab.2]
  · have hc : code u ∈ hfin.toFinset.toList := by
      rw [Finset.mem_toList, Set.Finite.mem_toFinset]
      exact ⟨u, hu, rfl⟩
    exact ⟨f (code u), List.mem_map.2 ⟨_, hc, rfl⟩, hcode u _ hu (hf1 _ hc) (hf2 _ hc).symm⟩

/-! ## The sweep -/

/-- The chances of the outcomes of a sweep over the rows `l` in random order. -/
noncomputable def sweepKernel (vs : List View) (l : List RowId) (u : View) (F : View → ENNReal) : ENNReal :=
  overOrders (l.length - 1) l fun l' => kernels (fun r => resample vs joint (SameApart r)) l' u F

theorem ends_sweep {l : List RowId} {rowids : List RowId}
    (hl : ∀ g, Gibbs.rowidsTransition rowids (u, g) = (.ok l, (u, g))) (Φ : View → Set Rng) :
    Ends (Gibbs.transitionViewRows rowids) u Φ = {g | ∃ l' g', permutation l g = (.ok l', g') ∧ g' ∈
      Ends (Py.mapL (fun r => (transitionRows (cgpmI 1) r : Py (Node (Cgpm 1) × Rng) Unit)) l' : Py (View × Rng) _) u Φ} := by
  have e : ∀ g, Gibbs.transitionViewRows rowids (u, g) = match permutation l g with
      | (.error e, g') => (.error e, (u, g'))
      | (.ok l', g') => match (Py.mapL (fun r => (transitionRows (cgpmI 1) r : Py (Node (Cgpm 1) × Rng) Unit)) l' :
          Py (View × Rng) _) (u, g') with
        | (.error e, s) => (.error e, s)
        | (.ok _, s) => (.ok (), s) := by
    intro g
    unfold Gibbs.transitionViewRows
    refine (bind_run (s := (u, g)) (hl g)).trans ?_
    rw [Py.bind_apply]
    unfold Py.onSnd
    rcases permutation l g with ⟨_ | l', g'⟩
    · rfl
    · dsimp only
      rw [Py.bind_apply]
      rcases (Py.mapL (fun r => (transitionRows (cgpmI 1) r : Py (Node (Cgpm 1) × Rng) Unit)) l' :
          Py (View × Rng) _) (u, g') with ⟨_ | as, s⟩ <;> rfl
  ext g
  unfold Ends
  simp only [Set.mem_ofPred_eq, e]
  rcases h1 : permutation l g with ⟨_ | l', g'⟩
  · constructor
    · rintro ⟨_, _, _, h, -⟩
      cases h
    · rintro ⟨_, _, h, -⟩
      cases h
  · dsimp only
    constructor
    · rintro ⟨a, u', g'', h2, h3⟩
      refine ⟨l', g', rfl, ?_⟩
      rcases h4 : (Py.mapL (fun r => (transitionRows (cgpmI 1) r : Py (Node (Cgpm 1) × Rng) Unit)) l' :
          Py (View × Rng) _) (u, g') with ⟨_ | as, u1, g1⟩
      · rw [h4] at h2
        cases h2
      · rw [h4] at h2
        cases h2
        exact ⟨as, _, _, rfl, h3⟩
    · rintro ⟨_, _, h2, as, u', g'', h3, h4⟩
      cases h2
      rw [h3]
      exact ⟨_, _, _, rfl, h4⟩

theorem sweep_kernel (hμ : IsDraw μ) {vs : List View} (hs : Stage T Z v vs) {rowids l : List RowId} (hn : l.Nodup)
    (hl : ∀ r, r ∈ l ↔ Mates v r r ∧ (rowids = [] ∨ r ∈ rowids)) :
    Kernel μ (Fit T Z v) SamePartition (Gibbs.transitionViewRows rowids) (sweepKernel vs l) := by
  have hrows : ∀ l' : List RowId, l'.Perm l → Kernel μ (Fit T Z v) SamePartition
      (Py.mapL (fun r => (transitionRows (cgpmI 1) r : Py (Node (Cgpm 1) × Rng) Unit)) l' : Py (View × Rng) _)
      (kernels (fun r => resample vs joint (SameApart r)) l') := fun l' hl' =>
    Kernel.mapL fun r hr => row_kernel hμ hs ((hl r).1 (hl'.mem_iff.1 hr)).1
  have hvis : ∀ u, Fit T Z v u → ∃ lu : List RowId, (∀ g, Gibbs.rowidsTransition rowids (u, g) = (.ok lu, (u, g))) ∧
      lu.Nodup ∧ lu.Perm l := by
    intro u hu
    obtain ⟨lu, h1, h2, h3⟩ := rows_visited hu.reg hu.isView rowids
    refine ⟨lu, h1, h2, (List.perm_ext_iff_of_nodup h2 hn).2 fun r => ?_⟩
    rw [h3, hl, hu.rows]
  refine ⟨fun u hu g a u' g' e => ?_, fun u hu Φ F hΦ hF => ?_, fun F hF u w hu hw e => ?_⟩
  · obtain ⟨lu, h1, -, h3⟩ := hvis u hu
    have : g ∈ Ends (Gibbs.transitionViewRows rowids) u fun w => {g0 | w = u' ∧ g0 = g'} := ⟨a, u', g', e, rfl, rfl⟩
    rw [ends_sweep h1] at this
    obtain ⟨l', g1, h4, as, u1, g2, h5, rfl, rfl⟩ := this
    obtain ⟨l'', g'', h6, h7⟩ := permutation_ok lu g
    rw [h4] at h6
    cases h6
    exact (hrows l' (h7.trans h3)).good _ hu _ _ _ _ h5
  · obtain ⟨lu, h1, h2, h3⟩ := hvis u hu
    rw [ends_sweep h1]
    obtain ⟨h4, h5⟩ := permutation_law hμ h2 (Ψ := fun l' => Ends (Py.mapL (fun r =>
      (transitionRows (cgpmI 1) r : Py (Node (Cgpm 1) × Rng) Unit)) l' : Py (View × Rng) _) u Φ)
      fun l' hl' => ((hrows l' (hl'.trans h3)).law u hu Φ F hΦ hF).1
    refine ⟨h4, h5.trans ?_⟩
    unfold sweepKernel
    rw [overOrders_congr _ _ (H' := fun l' => kernels (fun r => resample vs joint (SameApart r)) l' u F)
      fun l' hl' => ((hrows l' (hl'.trans h3)).law u hu Φ F hΦ hF).2, h3.length_eq]
    rcases hlen : l.length with _ | n
    · obtain rfl := List.length_eq_zero_iff.1 hlen
      rw [List.perm_nil.1 h3]
    · exact overOrders_perm n h3 (h3.length_eq.trans hlen) _
  · exact overOrders_congr _ _ fun l' hl' => (hrows l' hl').cls F hF u w hu hw e

theorem sweep_keeps (hμ : IsDraw μ) {vs : List View} (hs : Stage T Z v vs) {l : List RowId}
    (hl : ∀ r ∈ l, Mates v r r) : Keeps (Fit T Z v) SamePartition vs joint (sweepKernel vs l) := by
  intro F hF
  unfold sweepKernel
  rw [overOrders_sum (l.length - 1) l vs joint fun u l' => kernels (fun r => resample vs joint (SameApart r)) l' u F]
  rw [overOrders_congr _ _ (H' := fun _ => (vs.map fun u => joint u * F u).sum) fun l' hl' => ?_]
  · rcases hlen : l.length with _ | n
    · obtain rfl := List.length_eq_zero_iff.1 hlen
      rfl
    · exact overOrders_const n hlen _
  · exact Keeps.mapL (μ := μ) (f := fun r => (transitionRows (cgpmI 1) r : Py (Node (Cgpm 1) × Rng) Unit))
      (K := fun r => resample vs joint (SameApart r))
      (fun r hr => row_kernel hμ hs (hl r (hl'.mem_iff.1 hr))) (fun r _ => row_keeps hs r) F hF

/-- The chance of one class. -/
theorem kernel_chance {m : Py (View × Rng) Unit} {K : View → (View → ENNReal) → ENNReal}
    (hk : Kernel μ (Fit T Z v) SamePartition m K) (hu : Fit T Z v u) :
    haveI := Classical.propDecidable
    Pr μ {g | ∃ u' g', m (u, g) = (.ok (), (u', g')) ∧ SamePartition u' w} = K u fun u' => if SamePartition u' w then 1 else 0 := by
  classical
  have hF : ClassFn (Fit T Z v) SamePartition fun u' => if SamePartition u' w then (1 : ENNReal) else 0 := fun a b _ _ e => by
    have : SamePartition a w ↔ SamePartition b w :=
      ⟨fun h => SamePartition.trans' (SamePartition.symm' e) h, fun h => SamePartition.trans' e h⟩
    simp only [this]
  rw [← (hk.law u hu (fun u' => {_g | SamePartition u' w}) _ (fun u' _ => ?_) hF).2]
  · congr 1
    ext g
    constructor
    · rintro ⟨u', g', h1, h2⟩
      exact ⟨_, _, _, h1, h2⟩
    · rintro ⟨_, u', g', h1, h2⟩
      exact ⟨u', g', h1, h2⟩
  · by_cases h : SamePartition u' w
    · simp [h]
    · simp [h]

theorem Reps.sum_single {vs : List View} (hs : Reps T Z v vs) (hw : w ∈ vs) (f : View → ENNReal) :
    haveI := Classical.propDecidable
    (vs.map fun u => f u * if SamePartition u w then 1 else 0).sum = f w := by
  classical
  have e2 : ∀ u ∈ vs, (f u * if SamePartition u w then 1 else 0) = if u = w then f u else 0 := by
    intro u hu
    by_cases h : u = w
    · subst h
      have : SamePartition u u := fun _ _ => Iff.rfl
      simp [this]
    · have : ¬ SamePartition u w := fun e => h (hs.eq hu hw e)
      simp [h, this]
  rw [List.map_congr_left e2, ← List.sum_toFinset _ hs.nodup]
  simp [hw]

open Classical in
theorem conditional_of (hμ : IsDraw μ) {vs : List View} (hs : Stage T Z v vs) {r : RowId} (hr : Mates v r r)
    (hu : Fit T Z v u) (hw : w ∈ vs) :
    Pr μ {g | ∃ u' g', transitionRows (cgpmI 1) r (u, g) = (.ok (), (u', g')) ∧ SamePartition u' w} =
      if SameApart r u w then joint w / (vs.map fun w' => if SameApart r u w' then joint w' else 0).sum else 0 := by
  refine (kernel_chance (row_kernel hμ hs hr) hu).trans ?_
  unfold resample
  have e : ∀ w' ∈ vs, (if SameApart r u w' then joint w' * (if SamePartition w' w then 1 else 0) else 0) =
      (if SameApart r u w' then joint w' else 0) * (if SamePartition w' w then 1 else 0) := fun w' _ => by
    split <;> simp
  rw [List.map_congr_left e, hs.reps.sum_single hw fun w' => if SameApart r u w' then joint w' else 0]
  split
  · rfl
  · simp

/-- A move that keeps the weights: the chances of the outcomes. -/
theorem kernel_outcome {vs : List View} (hs : Reps T Z v vs) {m : Py (View × Rng) Unit} {K : View → (View → ENNReal) → ENNReal}
    (hk : Kernel μ (Fit T Z v) SamePartition m K) (hK : Keeps (Fit T Z v) SamePartition vs joint K) (hw : w ∈ vs) :
    (vs.map fun u => joint u * Pr μ {g | ∃ u' g', m (u, g) = (.ok (), (u', g')) ∧ SamePartition u' w}).sum = joint w := by
  classical
  have hF : ClassFn (Fit T Z v) SamePartition fun u' => if SamePartition u' w then (1 : ENNReal) else 0 := fun a b _ _ e => by
    have : SamePartition a w ↔ SamePartition b w :=
      ⟨fun h => SamePartition.trans' (SamePartition.symm' e) h, fun h => SamePartition.trans' e h⟩
    simp only [this]
  rw [List.map_congr_left fun u hu => by rw [kernel_chance hk (hs.each u hu)], hK _ hF]
  exact hs.sum_single hw joint

end Cgpm2.Views
