import Verif.Lemmas.JointSteps
import Verif.Lemmas.SweepLaw

/-!
# A CrossCat has finitely many states (helpers)
-/

namespace Cgpm2.Views
open Spec Cpp

theorem prune {S : Type} {R : S → S → Prop} (hr : ∀ s, R s s) : ∀ l : List S,
    ∃ vs : List S, (∀ u ∈ vs, u ∈ l) ∧ (vs.Pairwise fun u w => ¬ R u w) ∧ ∀ u ∈ l, ∃ w ∈ vs, R u w ∨ R w u
  | [] => ⟨[], by simp, .nil, by simp⟩
  | a :: l => by
    classical
    obtain ⟨vs, h1, h2, h3⟩ := prune hr l
    by_cases h : ∃ w ∈ vs, R a w ∨ R w a
    · refine ⟨vs, fun u hu => List.mem_cons_of_mem _ (h1 u hu), h2, fun u hu => ?_⟩
      rcases List.mem_cons.1 hu with rfl | hu
      · exact h
      · exact h3 u hu
    · refine ⟨a :: vs, fun u hu => ?_, List.pairwise_cons.2 ⟨fun w hw hn => h ⟨w, hw, .inl hn⟩, h2⟩, fun u hu => ?_⟩
      · rcases List.mem_cons.1 hu with rfl | hu
        · exact List.mem_cons_self
        · exact List.mem_cons_of_mem _ (h1 u hu)
      · rcases List.mem_cons.1 hu with rfl | hu
        · exact ⟨u, List.mem_cons_self, .inl (hr u)⟩
        · obtain ⟨w, hw, e⟩ := h3 u hu
          exact ⟨w, List.mem_cons_of_mem _ hw, e⟩

theorem classes_exist {S T : Type} {G : S → Prop} {R : S → S → Prop} (f : S → T) (hfin : (f '' {s | G s}).Finite)
    (hf : ∀ u w, G u → G w → f u = f w → R u w) (hr : ∀ s, R s s) (hs : ∀ s w, R s w → R w s)
    (ht : ∀ s w x, R s w → R w x → R s x) : ∃ vs, Classes G R vs := by
  classical
  have : ∀ t, ∃ s : Option S, (t ∈ f '' {s | G s} → ∃ u, s = some u ∧ G u ∧ f u = t) := fun t => by
    by_cases h : t ∈ f '' {s | G s}
    · obtain ⟨u, hu, e⟩ := h
      exact ⟨some u, fun _ => ⟨u, rfl, hu, e⟩⟩
    · exact ⟨none, fun h' => absurd h' h⟩
  choose F hF using this
  obtain ⟨vs, h1, h2, h3⟩ := prune hr (hfin.toFinset.toList.filterMap F)
  refine ⟨vs, hr, hs, ht, fun u hu => ?_, h2, fun u hu => ?_⟩
  · obtain ⟨t, h4, h5⟩ := List.mem_filterMap.1 (h1 u hu)
    obtain ⟨u', h6, h7, -⟩ := hF t (by simpa using h4)
    rw [h5] at h6
    cases h6
    exact h7
  · have hm : f u ∈ f '' {s | G s} := ⟨u, hu, rfl⟩
    obtain ⟨u', h6, h7, h8⟩ := hF (f u) hm
    obtain ⟨w, hw, e⟩ := h3 u' (List.mem_filterMap.2 ⟨f u, by simpa using ⟨u, hu, rfl⟩, h6⟩)
    exact ⟨w, hw, ht _ _ _ (hf u u' hu h7 h8.symm) (e.elim id (hs _ _))⟩

theorem forall₂_finite {A T : Type} {P : A → T → Prop} {l : List A} (h : ∀ a ∈ l, {t | P a t}.Finite) :
    {ts | List.Forall₂ P l ts}.Finite := by
  induction l with
  | nil =>
    refine (Set.finite_singleton ([] : List T)).subset fun ts hts => ?_
    cases hts
    rfl
  | cons a l ih =>
    refine ((h a List.mem_cons_self).image2 List.cons (ih fun b hb => h b (List.mem_cons_of_mem _ hb))).subset fun ts hts => ?_
    cases hts with
    | cons h1 h2 => exact ⟨_, h1, _, h2, rfl⟩

variable {Z : List Var} {grids : Dict (Option Var) (Dict String (List ℝ))} {x0 : Crosscat} {v0 u w : View}

/-- What distinguishes the states of a view. -/
noncomputable def signature (v : View) : Set (RowId × RowId) × List (Option (Dict String ℝ)) :=
  ({p | Mates v p.1 p.2}, ((cgpmI 2).outputs v).map (hypersAt v))

theorem signature_same (hu : Variant Z grids v0 u) (hw : Variant Z grids v0 w) (e : signature u = signature w) : SameState u w := by
  unfold signature at e
  rw [Prod.mk.injEq] at e
  refine ⟨fun r r' => Set.ext_iff.1 e.1 (r, r'), fun o => ?_⟩
  by_cases ho : o ∈ (cgpmI 2).outputs v0
  · have e2 := e.2
    rw [hu.outputs, hw.outputs] at e2
    exact List.map_inj_left.1 e2 o ho
  · rw [hypersAt_none (tidy_reg hu.tidy) (by rw [hu.outputs]; exact ho), hypersAt_none (tidy_reg hw.tidy) (by rw [hw.outputs]; exact ho)]

theorem mates_rows (hr : (cgpmTab Z 2).Reg u) {r r' : RowId} (h : Mates u r r') : Mates u r r ∧ Mates u r' r' := by
  rw [mates_iff hr] at h
  obtain ⟨k, h1, h2⟩ := h
  rw [mates_iff hr, mates_iff hr]
  exact ⟨⟨k, h1, h1⟩, ⟨k, h2, h2⟩⟩

theorem signature_finite (B : Ground Z grids v0) : (signature '' {v | Variant Z grids v0 v}).Finite := by
  classical
  obtain ⟨l, -, -, hl⟩ := rows_visited (tidy_reg B.tidy) B.isView []
  have hrows : ∀ v, Variant Z grids v0 v → ∀ r, Mates v r r → r ∈ l := fun v hv r hm => (hl r).2 ⟨(hv.rows r).2 hm, .inl rfl⟩
  have hA : (𝒫 {p : RowId × RowId | p.1 ∈ l ∧ p.2 ∈ l}).Finite := by
    refine Set.Finite.finite_subsets ?_
    exact (Set.Finite.prod (List.finite_toSet l) (List.finite_toSet l)).subset fun p hp => ⟨hp.1, hp.2⟩
  have hB : {ts : List (Option (Dict String ℝ)) | List.Forall₂ (fun o t => t ∈ some '' {h | h ∈ cellsOf ((gridsAt grids v0 o).getD [])})
      ((cgpmI 2).outputs v0) ts}.Finite := forall₂_finite fun o _ => by
    exact (List.finite_toSet _).image _
  refine (hA.prod hB).subset ?_
  rintro t ⟨v, hv, rfl⟩
  have hv : Variant Z grids v0 v := hv
  refine ⟨fun p hp => ?_, ?_⟩
  · obtain ⟨h1, h2⟩ := mates_rows (tidy_reg hv.tidy) (show Mates v p.1 p.2 from hp)
    exact ⟨hrows v hv _ h1, hrows v hv _ h2⟩
  · change List.Forall₂ _ _ (((cgpmI 2).outputs v).map (hypersAt v))
    rw [hv.outputs, List.forall₂_map_right_iff]
    refine List.forall₂_same.2 fun o ho => ?_
    obtain ⟨k, grid, hc⟩ := B.column ho
    obtain ⟨h, h1, h2⟩ := hv.cell hc
    refine ⟨h, ?_, h1.symm⟩
    change h ∈ cellsOf _
    rw [hc.found]
    exact h2

theorem states_exist (h : Samplable Z grids x0) : ∃ states, States Z grids x0 states := by
  have hfin : ((fun x : Crosscat => x.cgpms.map signature) '' {x | Variants Z grids x0 x}).Finite := by
    refine (forall₂_finite (P := fun v t => t ∈ signature '' {v' | Variant Z grids v v'}) (l := x0.cgpms)
      fun v hv => signature_finite (samplable_ground h hv)).subset ?_
    rintro t ⟨x, hx, rfl⟩
    change List.Forall₂ _ _ (x.cgpms.map signature)
    rw [List.forall₂_map_right_iff]
    exact List.Forall₂.imp (fun a b hab => ⟨b, hab, rfl⟩) hx
  have hinj : ∀ x y, Variants Z grids x0 x → Variants Z grids x0 y → x.cgpms.map signature = y.cgpms.map signature →
      SameStates x y := fun x y hx hy e => by
    refine forall₂_of_get (hx.length_eq.symm.trans hy.length_eq) fun i a b ha hb => ?_
    obtain ⟨v, hv, h1⟩ := forall₂_get hx.flip ha
    obtain ⟨v', hv', h2⟩ := forall₂_get hy.flip hb
    rw [hv] at hv'
    cases hv'
    refine signature_same (v0 := v) h1 h2 ?_
    have e' := congrArg (fun l => l[i]?) e
    simp only [List.getElem?_map, ha, hb, Option.map_some] at e'
    exact Option.some.inj e'
  obtain ⟨vs, hvs⟩ := classes_exist (G := Variants Z grids x0) (R := SameStates) _ hfin hinj sameStates_refl
    (fun _ _ => sameStates_symm) fun _ _ _ => sameStates_trans
  exact ⟨vs, hvs.each, hvs.once, hvs.all⟩

/-! ## The weights -/

theorem stateWeight_eq {x : Crosscat} (hx : Variants Z grids x0 x) :
    stateWeight grids x = (x.cgpms.map (viewWeight grids)).prod := by
  have hj : ∀ v ∈ x.cgpms, (cgpmI 2).logpdfScore v = .ok (.fin ((primsIn 2 v).map Prim.score).sum) := fun v hv => by
    obtain ⟨i, hi⟩ := List.mem_iff_getElem?.1 hv
    obtain ⟨u, -, hu⟩ := forall₂_get hx.flip hi
    exact score_prims (tidy_reg hu.tidy) hu.isView
  have e1 : Product.logpdfScore (cgpmI 2) x = .ok (.fin (x.cgpms.map fun v => ((primsIn 2 v).map Prim.score).sum).sum) := by
    unfold Product.logpdfScore
    rw [mapM_ok _ _ _ hj]
    change Except.ok (Fl.sum (x.cgpms.map fun v => Fl.fin ((primsIn 2 v).map Prim.score).sum)) = _
    rw [fl_sum_fin]
  unfold stateWeight
  rw [e1]
  dsimp only
  clear e1 hx
  generalize x.cgpms = l at hj
  induction l with
  | nil => simp
  | cons v l ih =>
    simp only [List.map_cons, List.sum_cons, List.prod_cons]
    rw [← ih fun u hu => hj u (List.mem_cons_of_mem _ hu), Real.exp_add, ENNReal.ofReal_mul (Real.exp_nonneg _), Nat.cast_mul]
    unfold viewWeight joint
    rw [hj v List.mem_cons_self]
    dsimp only
    ring

theorem heldWeight_ne (h : Samplable Z grids x0) {s : Gibbs} (hs : Held Z grids x0 s) :
    heldWeight grids s ≠ 0 ∧ heldWeight grids s ≠ ⊤ := by
  have key : ∀ v ∈ s.crosscat.cgpms, viewWeight grids v ≠ 0 ∧ viewWeight grids v ≠ ⊤ := fun v hv => by
    obtain ⟨i, hi⟩ := List.mem_iff_getElem?.1 hv
    obtain ⟨v0, h0, hu⟩ := forall₂_get hs.1.flip hi
    have hu : Variant Z grids v0 v := hu
    have B := samplable_ground h (List.mem_of_getElem? h0)
    unfold viewWeight
    refine ⟨mul_ne_zero hu.joint_ne.1 ?_, ENNReal.mul_ne_top hu.joint_ne.2 (ENNReal.natCast_ne_top _)⟩
    rw [Nat.cast_ne_zero]
    unfold Spec.multiplicity
    refine List.prod_ne_zero fun h0' => ?_
    obtain ⟨o, ho, e⟩ := List.mem_map.1 h0'
    rw [hu.outputs] at ho
    obtain ⟨k, grid, hc⟩ := B.column ho
    obtain ⟨y, h1, h2⟩ := hu.cell hc
    rw [h1, gridsAt_same hu.outputs, hc.found] at e
    exact gridCount_ne h2 e
  unfold heldWeight
  generalize s.crosscat.cgpms = l at key
  induction l with
  | nil => simp
  | cons v l ih =>
    obtain ⟨h1, h2⟩ := ih fun u hu => key u (List.mem_cons_of_mem _ hu)
    obtain ⟨h3, h4⟩ := key v List.mem_cons_self
    rw [List.map_cons, List.prod_cons]
    exact ⟨mul_ne_zero h3 h1, ENNReal.mul_ne_top h4 h2⟩

end Cgpm2.Views
