import Verif.Lemmas.JointRows
import Verif.Lemmas.Kernels

/-!
# The kernels of a CrossCat as moves between its states (helpers)
-/

namespace Cgpm2.Views
open Spec Cpp MeasureTheory

section Lists
variable {A B : Type} {P : A → B → Prop}

theorem forall₂_get {l : List A} {l' : List B} (h : List.Forall₂ P l l') {i : Nat} {a : A} (ha : l[i]? = some a) :
    ∃ b, l'[i]? = some b ∧ P a b := by
  induction h generalizing i with
  | nil => cases ha
  | cons h1 _ ih =>
    cases i with
    | zero => cases ha; exact ⟨_, rfl, h1⟩
    | succ i => exact ih ha

theorem forall₂_set {l : List A} {l' : List B} (h : List.Forall₂ P l l') {i : Nat} {a : A} {b : B} (ha : l[i]? = some a)
    (hab : P a b) : List.Forall₂ P l (l'.set i b) := by
  induction h generalizing i with
  | nil => cases ha
  | cons h1 h2 ih =>
    cases i with
    | zero => cases ha; exact .cons hab h2
    | succ i => exact .cons h1 (ih ha)

theorem forall₂_set₂ {l : List A} {l' : List B} (h : List.Forall₂ P l l') (i : Nat) {a : A} {b : B} (hab : P a b) :
    List.Forall₂ P (l.set i a) (l'.set i b) := by
  induction h generalizing i with
  | nil => exact .nil
  | cons h1 h2 ih =>
    cases i with
    | zero => exact .cons hab h2
    | succ i => exact .cons h1 (ih i)

theorem forall₂_of_get {l : List A} {l' : List B} (hl : l.length = l'.length)
    (h : ∀ (i : Nat) a b, l[i]? = some a → l'[i]? = some b → P a b) : List.Forall₂ P l l' := by
  induction l generalizing l' with
  | nil =>
    cases l' with
    | nil => exact .nil
    | cons b l' => cases hl
  | cons a l ih =>
    cases l' with
    | nil => cases hl
    | cons b l' => exact .cons (h 0 a b rfl rfl) (ih (by simpa using hl) fun i => h (i + 1))

theorem prod_set (f : A → ENNReal) {l : List A} {i : Nat} (hi : i < l.length) (a : A) :
    ((l.set i a).map f).prod = ((l.eraseIdx i).map f).prod * f a := by
  induction l generalizing i with
  | nil => cases hi
  | cons b l ih =>
    cases i with
    | zero => simp [mul_comm]
    | succ i =>
      simp only [List.set_cons_succ, List.map_cons, List.prod_cons, List.eraseIdx_cons_succ]
      rw [ih (by simpa using hi), mul_assoc]

end Lists

variable {μ : Measure Draw} [IsProbabilityMeasure μ] {Z : List Var} {grids : Dict (Option Var) (Dict String (List ℝ))}
  {x0 x x' : Crosscat} {v0 : View} {i : Nat} {o : Var}

theorem samplable_ground (h : Samplable Z grids x0) {v : View} (hv : v ∈ x0.cgpms) : Ground Z grids v :=
  ⟨h.tidy v hv, h.views v hv, fun _ ho => h.columns _ (List.mem_flatMap.2 ⟨v, hv, ho⟩), h.known v hv, h.gridded v hv⟩

theorem samplable_nodup (h : Samplable Z grids x0) : (x0.cgpms.flatMap (cgpmI 2).outputs).Nodup := by
  have := h.built
  unfold Product.init at this
  rcases hv : Product.validate (cgpmI 2) x0.cgpms with e | u
  · rw [hv] at this; cases this
  · exact Product.validate_nodup hv

theorem variants_outputs (h : Variants Z grids x0 x) : x.cgpms.map (cgpmI 2).outputs = x0.cgpms.map (cgpmI 2).outputs := by
  unfold Variants at h
  generalize x0.cgpms = l, x.cgpms = l' at h
  induction h with
  | nil => rfl
  | cons h1 _ ih => rw [List.map_cons, List.map_cons, h1.outputs, ih]

theorem variants_cc (h : Samplable Z grids x0) (hx : Variants Z grids x0 x) : CC Z x := by
  have hreg : ∀ v ∈ x.cgpms, Tidy Z 2 v ∧ IsView v := fun v hv => by
    obtain ⟨i, hi⟩ := List.mem_iff_getElem?.1 hv
    obtain ⟨u, -, hu⟩ := forall₂_get hx.flip hi
    exact ⟨hu.tidy, hu.isView⟩
  have hnd : (x.cgpms.flatMap (cgpmI 2).outputs).Nodup := by
    rw [flatMap_of_map (variants_outputs hx)]
    exact samplable_nodup h
  refine ⟨⟨fun c hc => tidy_reg (hreg c hc).1, ?_, ?_⟩, fun v hv => (hreg v hv).2, fun o ho => ?_⟩
  · have hi : x.cgpms.flatMap (cgpmI 2).inputs = [] :=
      List.flatMap_eq_nil_iff.2 fun c hc => (cgpmTLaws Z 2).inputs _ (tidy_reg (hreg c hc).1)
    unfold Product.validate
    dsimp only
    rw [if_neg (not_not.2 hnd), hi, if_neg (by simp)]
  · intro e
    have hl := hx.length_eq
    rw [e] at hl
    exact h.some (List.length_eq_zero_iff.1 hl)
  · refine h.columns o ?_
    have e : columns x = columns x0 := by
      unfold columns viewColumns
      have := congrArg (List.flatMap List.tail) (variants_outputs hx)
      rwa [List.flatMap_map, List.flatMap_map] at this
    rw [← e]
    exact ho

/-! ## One view -/

/-- The states of the sampler. -/
def Held (Z : List Var) (grids : Dict (Option Var) (Dict String (List ℝ))) (x0 : Crosscat) (s : Gibbs) : Prop :=
  Variants Z grids x0 s.crosscat ∧ s.grids = grids

def HeldSame (s s' : Gibbs) : Prop := SameStates s.crosscat s'.crosscat

noncomputable def heldWeight (grids : Dict (Option Var) (Dict String (List ℝ))) (s : Gibbs) : ENNReal :=
  (s.crosscat.cgpms.map (viewWeight grids)).prod

def viewAt (v0 : View) (i : Nat) (s : Gibbs) : View := (s.crosscat.cgpms[i]?).getD v0

def withView (i : Nat) (s : Gibbs) (v : View) : Gibbs := { s with crosscat := ⟨s.crosscat.cgpms.set i v⟩ }

theorem viewAt_eq (hi : x0.cgpms[i]? = some v0) {s : Gibbs} (hs : Held Z grids x0 s) :
    s.crosscat.cgpms[i]? = some (viewAt v0 i s) ∧ Variant Z grids v0 (viewAt v0 i s) := by
  obtain ⟨v, h1, h2⟩ := forall₂_get hs.1 hi
  unfold viewAt
  rw [h1]
  exact ⟨rfl, h2⟩

theorem sameStates_refl (x : Crosscat) : SameStates x x := List.forall₂_same.2 fun v _ => SameState.refl' v

theorem sameStates_symm (h : SameStates x x') : SameStates x' x := h.flip.imp fun _ _ => SameState.symm'

theorem sameStates_trans {x'' : Crosscat} (h : SameStates x x') (h' : SameStates x' x'') : SameStates x x'' := by
  refine forall₂_of_get (h.length_eq.trans h'.length_eq) fun i a b ha hb => ?_
  obtain ⟨c, hc, h1⟩ := forall₂_get h ha
  obtain ⟨d, hd, h2⟩ := forall₂_get h' hc
  rw [hb] at hd
  cases hd
  exact SameState.trans' h1 h2

theorem view_lens (hi : x0.cgpms[i]? = some v0) :
    Lens (Held Z grids x0) HeldSame (fun _ => Variant Z grids v0) SameState (viewAt v0 i) (withView i) where
  own s hs := (viewAt_eq hi hs).2
  good s v hs hv := ⟨forall₂_set hs.1 hi hv, hs.2⟩
  same s s' hs hs' e := by
    obtain ⟨u, h1, h2⟩ := forall₂_get e (viewAt_eq hi hs).1
    rw [(viewAt_eq hi hs').1] at h1
    cases h1
    exact h2
  congr s s' v v' _ _ e _ _ e' := forall₂_set₂ e i e'
  get_put s v hs _ := by
    have := (List.getElem?_eq_some_iff.1 (viewAt_eq hi hs).1).1
    unfold viewAt withView
    dsimp only
    rw [List.getElem?_set_self this]
    exact SameState.refl' v
  put_get s hs := by
    obtain ⟨h1, h2⟩ := List.getElem?_eq_some_iff.1 (viewAt_eq hi hs).1
    unfold HeldSame withView
    dsimp only
    rw [← h2, List.set_getElem_self]
    exact sameStates_refl _
  put_put s v v' _ _ _ := by
    unfold HeldSame withView
    dsimp only
    rw [List.set_set]
    exact sameStates_refl _
  dom_put _ _ _ _ _ := Iff.rfl
  dom _ _ _ _ _ _ := Iff.rfl
  refl v := SameState.refl' v
  symm _ _ := SameState.symm'
  trans _ _ _ := SameState.trans'

theorem heldWeight_classFn (h : Samplable Z grids x0) : ClassFn (Held Z grids x0) HeldSame (heldWeight grids) := by
  intro s s' hs hs' e
  unfold heldWeight
  congr 1
  refine List.ext_getElem? fun i => ?_
  rw [List.getElem?_map, List.getElem?_map]
  rcases hi : x0.cgpms[i]? with _ | v0
  · have h1 := List.getElem?_eq_none_iff.1 hi
    rw [List.getElem?_eq_none (by rw [← hs.1.length_eq]; exact h1), List.getElem?_eq_none (by rw [← hs'.1.length_eq]; exact h1)]
  · have a := viewAt_eq hi hs
    have b := viewAt_eq hi hs'
    rw [a.1, b.1, Option.map_some, Option.map_some]
    rw [viewWeight_classFn (samplable_ground h (List.mem_of_getElem? hi)) _ _ a.2 b.2 ((view_lens hi).same s s' hs hs' e)]

theorem heldWeight_put (hi : x0.cgpms[i]? = some v0) {s : Gibbs} (hs : Held Z grids x0 s) (v : View) :
    heldWeight grids (withView i s v) = ((s.crosscat.cgpms.eraseIdx i).map (viewWeight grids)).prod * viewWeight grids v :=
  prod_set _ (List.getElem?_eq_some_iff.1 (viewAt_eq hi hs).1).1 v

/-- The kernel of a move of one view. -/
noncomputable def viewKernel (Z : List Var) (grids : Dict (Option Var) (Dict String (List ℝ))) (v0 : View) (i : Nat)
    (KV : List View → View → (View → ENNReal) → ENNReal) (vs : List Gibbs) (s : Gibbs) (F : Gibbs → ENNReal) : ENNReal :=
  KV (partsOf HeldSame (fun _ => Variant Z grids v0) (viewAt v0 i) (withView i) vs s) (viewAt v0 i s) fun v => F (withView i s v)

theorem view_move {α : Type} (h : Samplable Z grids x0) (hi : x0.cgpms[i]? = some v0) {mV : Py (View × Rng) α}
    {KV : List View → View → (View → ENNReal) → ENNReal} {m : Py (Gibbs × Rng) α}
    (hm : Move μ (Variant Z grids v0) SameState (viewWeight grids) mV KV)
    (hrun : ∀ s, Held Z grids x0 s → ∀ g, m (s, g) =
      ((mV (viewAt v0 i s, g)).1, (withView i s (mV (viewAt v0 i s, g)).2.1, (mV (viewAt v0 i s, g)).2.2))) :
    Move μ (Held Z grids x0) HeldSame (heldWeight grids) m (viewKernel Z grids v0 i KV) :=
  Move.lift (view_lens hi) hm hrun (heldWeight_classFn h) fun _ hs => ⟨_, fun v _ => heldWeight_put hi hs v⟩

theorem onView_run (hi : x0.cgpms[i]? = some v0) {α : Type} (mV : Py (View × Rng) α) {s : Gibbs} (hs : Held Z grids x0 s) (g : Rng) :
    Gibbs.onCrosscat (onView i mV) (s, g) =
      ((mV (viewAt v0 i s, g)).1, (withView i s (mV (viewAt v0 i s, g)).2.1, (mV (viewAt v0 i s, g)).2.2)) := by
  unfold Gibbs.onCrosscat onView
  dsimp only
  rw [(viewAt_eq hi hs).1]
  rfl

theorem columnRefs_view (hn : (x.cgpms.flatMap (cgpmI 2).outputs).Nodup) {v : View} (hi : x.cgpms[i]? = some v)
    (ho : o ∈ (cgpmI 2).outputs v) {r : Refs View} (hr : cgpmsByOutput 2 v o = .ok r) :
    columnRefs x o = .ok (r.map fun c => ⟨x.cgpms.set i c⟩) := by
  obtain ⟨hlt, hv⟩ := List.getElem?_eq_some_iff.1 hi
  have hsplit : x.cgpms = x.cgpms.take i ++ v :: x.cgpms.drop (i + 1) := by
    rw [← hv, List.getElem_cons_drop, List.take_append_drop]
  have hn' := hn
  rw [hsplit, List.flatMap_append, List.flatMap_cons, List.nodup_append'] at hn'
  obtain ⟨-, h2, h3⟩ := hn'
  rw [List.nodup_append'] at h2
  have := filter_zipIdx (l1 := x.cgpms.take i) (l2 := x.cgpms.drop (i + 1)) (c := v) (fun c => o ∈ (cgpmI 2).outputs c)
    (fun d hd hod => h3 (List.mem_flatMap.2 ⟨d, hd, hod⟩) (List.mem_append_left _ ho))
    (fun d hd hod => h2.2.2 ho (List.mem_flatMap.2 ⟨d, hd, hod⟩)) ho
  rw [← hsplit, List.length_take, min_eq_left hlt.le] at this
  unfold columnRefs Walk.product
  rw [this]
  dsimp only
  rw [hr]
  rfl

theorem onCells_run (h : Samplable Z grids x0) (hi : x0.cgpms[i]? = some v0) (ho : o ∈ (cgpmI 2).outputs v0) {α : Type}
    (f : Py (List Prim × Rng) α) {s : Gibbs} (hs : Held Z grids x0 s) (g : Rng) :
    Gibbs.onCrosscat (onCells o f) (s, g) = ((onColumn (n := 2) o f (viewAt v0 i s, g)).1,
      (withView i s (onColumn (n := 2) o f (viewAt v0 i s, g)).2.1, (onColumn (n := 2) o f (viewAt v0 i s, g)).2.2)) := by
  obtain ⟨h1, h2⟩ := viewAt_eq hi hs
  have ho' : o ∈ (cgpmI 2).outputs (viewAt v0 i s) := by rw [h2.outputs]; exact ho
  obtain ⟨r, hr, -⟩ := (cgpm_walk Z 2 _ (tidy_reg h2.tidy)).walk o ho'
  unfold Gibbs.onCrosscat onCells onColumn
  dsimp only
  rw [columnRefs_view (variants_cc h hs.1).nodup h1 ho' hr, hr]
  rfl

theorem column_move (hμ : IsDraw μ) (h : Samplable Z grids x0) (hi : x0.cgpms[i]? = some v0) {k : Prim.Kind}
    {grid : Dict String (List ℝ)} (hc : Column grids v0 o k grid) {key : Option Var} (hk : Dict.get? grids key = some grid) :
    Move μ (Held Z grids x0) HeldSame (heldWeight grids) (Gibbs.transitionColumn key o)
      (viewKernel Z grids v0 i fun _ => columnKernel grid o) := by
  have B := samplable_ground h (List.mem_of_getElem? hi)
  refine (view_move h hi (hyper_move hμ B hc) fun s hs g => onCells_run h hi hc.mem _ hs g).drop.same fun s hs g => ?_
  unfold Gibbs.transitionColumn
  rw [Py.get_bind]
  dsimp only
  rw [hs.2, Dict.getItem_ok hk, Py.lift_bind]

theorem rows_move (hμ : IsDraw μ) (h : Samplable Z grids x0) (hi : x0.cgpms[i]? = some v0) {rowids l : List RowId} (hn : l.Nodup)
    (hl : ∀ r, r ∈ l ↔ Mates v0 r r ∧ (rowids = [] ∨ r ∈ rowids)) :
    Move μ (Held Z grids x0) HeldSame (heldWeight grids) (Gibbs.onCrosscat (onView i (Gibbs.transitionViewRows rowids)))
      (viewKernel Z grids v0 i (rowsKernel Z v0 l)) :=
  view_move h hi (row_move hμ (samplable_ground h (List.mem_of_getElem? hi)) hn hl) fun _ hs g => onView_run hi _ hs g

end Cgpm2.Views
