import Verif.Lemmas.ViewMoves

/-!
# The functions that move columns between views (helpers)
-/

namespace Cgpm2.Views
open Spec

theorem lift_ok {T α : Type} {e : Except Err α} {a : α} {s s' : T}
    (h : Py.lift e s = (.ok a, s')) : e = .ok a ∧ s' = s := by
  cases e with
  | error e => cases h
  | ok b => cases h; exact ⟨rfl, rfl⟩

theorem onSnd_ok {S T α : Type} {m : Py T α} {s s' : S} {t t' : T} {a : α}
    (h : Py.onSnd m (s, t) = (.ok a, (s', t'))) : m t = (.ok a, t') ∧ s' = s := by
  unfold Py.onSnd at h
  rcases hm : m t with ⟨r, t1⟩
  simp only [hm, Prod.mk.injEq] at h
  obtain ⟨rfl, rfl, rfl⟩ := h
  exact ⟨rfl, rfl⟩

theorem item_ok {l : List View} {i : Nat} {v : View} (h : item l i = .ok v) : l[i]? = some v := by
  unfold item at h
  rcases hi : l[i]? with _ | w
  · rw [hi] at h; cases h
  · rw [hi] at h; cases h; rfl

theorem kept_refl {Z : List Var} {D : RowId → Prop} {l : List View} (h : ∀ v ∈ l, (cgpmTab Z 2).Reg v ∧ IsView v) :
    List.Forall₂ (Kept Z D) l l := by
  induction l with
  | nil => exact .nil
  | cons v l ih =>
    exact .cons (Kept.refl (h v (by simp)).1 (h v (by simp)).2) (ih fun v hv => h v (by simp [hv]))

theorem kept_set {Z : List Var} {D : RowId → Prop} {l : List View} (h : ∀ v ∈ l, (cgpmTab Z 2).Reg v ∧ IsView v) {i : Nat}
    {v v' : View} (hi : l[i]? = some v) (hk : Kept Z D v v') : List.Forall₂ (Kept Z D) l (l.set i v') := by
  induction l generalizing i with
  | nil => simp at hi
  | cons u l ih =>
    rcases i with _ | i
    · simp only [List.getElem?_cons_zero, Option.some.injEq] at hi
      subst hi
      exact .cons hk (kept_refl fun v hv => h v (by simp [hv]))
    · simp only [List.getElem?_cons_succ] at hi
      exact .cons (Kept.refl (h u (by simp)).1 (h u (by simp)).2)
        (ih (fun v hv => h v (by simp [hv])) hi)

theorem CC.all {Z : List Var} {x : Crosscat} (h : CC Z x) :
    ∀ v ∈ x.cgpms, (cgpmTab Z 2).Reg v ∧ IsView v := fun v hv => ⟨h.viewReg hv, h.views v hv⟩

theorem CC.same {Z : List Var} {x : Crosscat} (h : CC Z x) : Same Z [] (Rows Z x) x x :=
  ⟨h, fun _ _ _ => rfl, fun _ _ _ _ _ hk => hk, fun _ hR => hR, fun _ ha _ => ha⟩

theorem foldlM_one {v v' : View} {o : Var} (h : removeCgpm 2 v o = .ok v') :
    [o].foldlM (removeCgpm 2) v = .ok v' := by
  rw [List.foldlM_cons, h]
  rfl

/-- The views have the rows `R`, and each of them has a value in one of the columns. -/
def Filled (Z : List Var) (x : Crosscat) (outs : List Var) (R : RowId → Prop) : Prop :=
  Rows Z x R ∧ ∀ r, R r → Valued (fun r a => (cgpmTab Z 3).cell (whole x) r a) outs r

/-- The new view, with the rows that have a value in one of the columns. -/
def NewView (Z : List Var) (x x' : Crosscat) (outs : List Var) (z : Var) : Prop :=
  ∃ T ∈ x'.cgpms, (cgpmI 2).outputs T = z :: outs ∧ ∀ r, (cgpmTab Z 2).present T r ↔
    Valued (fun r a => (cgpmTab Z 3).cell (whole x) r a) outs r

/-- The outcome of a move: the columns stay, or join the block `C1`. -/
def Outcome (x x' : Crosscat) (outs : List Var) (C1 : List (List Var)) : Prop :=
  MovedCols C1 (x.cgpms.map viewColumns) (x'.cgpms.map viewColumns) outs

theorem eq_of_flatMap_nodup {S : Type} {f : S → List Var} {l : List S} (h : (l.flatMap f).Nodup)
    {u v : S} (hu : u ∈ l) (hv : v ∈ l) {o : Var} (h1 : o ∈ f u) (h2 : o ∈ f v) : u = v := by
  induction l with
  | nil => cases hu
  | cons c l ih =>
    rw [List.flatMap_cons, List.nodup_append] at h
    rcases List.mem_cons.1 hu with rfl | hu' <;> rcases List.mem_cons.1 hv with rfl | hv'
    · rfl
    · exact absurd rfl (h.2.2 o h1 o (List.mem_flatMap.2 ⟨v, hv', h2⟩))
    · exact absurd rfl (h.2.2 o h2 o (List.mem_flatMap.2 ⟨u, hu', h1⟩))
    · exact ih h.2.1 hu' hv'

theorem CC.eq_view {Z : List Var} {x : Crosscat} (h : CC Z x) {u v : View} (hu : u ∈ x.cgpms)
    (hv : v ∈ x.cgpms) {o : Var} (h1 : o ∈ (cgpmI 2).outputs u) (h2 : o ∈ (cgpmI 2).outputs v) : u = v :=
  eq_of_flatMap_nodup h.nodup hu hv h1 h2

theorem dropView_mem {l : List View} {y : Crosscat} (hn : (l.flatMap (cgpmI 2).outputs).Nodup) {u v : View}
    (hv : v ∈ l) (hh : ((cgpmI 2).outputs u).headD 0 ∉ (cgpmI 2).outputs v)
    (h : dropView ⟨l⟩ u = .ok y) : v ∈ y.cgpms := by
  unfold dropView at h
  rw [productRemove_ok (p := ⟨l⟩) hn] at h
  obtain ⟨rfl, -⟩ := init_ok h
  exact List.mem_filter.2 ⟨hv, by simpa using hh⟩

theorem CC.head_mem {Z : List Var} {x : Crosscat} (h : CC Z x) {u : View} (hu : u ∈ x.cgpms) :
    ((cgpmI 2).outputs u).headD 0 ∈ (cgpmI 2).outputs u := by
  obtain ⟨z, -, hz⟩ := h.head hu
  rw [hz]; simp

theorem nodup_of_drop {l : List View} {y : Crosscat} {u v : View} (hn : (l.flatMap (cgpmI 2).outputs).Nodup)
    (hv : v ∈ l) (hh : ((cgpmI 2).outputs u).headD 0 ∈ (cgpmI 2).outputs v)
    (h : dropView ⟨l⟩ u = .ok y) : (y.cgpms.flatMap (cgpmI 2).outputs).Nodup := by
  have := ((dropView_ok hn hv hh h).flatMap_right (cgpmI 2).outputs).nodup_iff.1 hn
  rw [List.flatMap_cons, List.nodup_append] at this
  exact this.2.1

theorem mem_set_of_ne {l : List View} {i : Nat} {v w u : View} (hv : v ∈ l) (hi : l[i]? = some u)
    (hne : v ≠ u) : v ∈ l.set i w := by
  obtain ⟨j, hj⟩ := List.mem_iff_getElem?.1 hv
  refine List.mem_iff_getElem?.2 ⟨j, ?_⟩
  rw [List.getElem?_set_ne]
  · exact hj
  · rintro rfl
    rw [hi] at hj
    exact hne (Option.some.inj hj).symm

/-- The views that are not concerned stay as they are; the column is added to the other view. -/
structure Joined (Z : List Var) (x x' : Crosscat) (o0 o1 : Var) (v1 : View) : Prop where
  kept : ∀ v ∈ x.cgpms, o0 ∉ viewColumns v → o1 ∉ viewColumns v → v ∈ x'.cgpms
  new : ∃ T ∈ x'.cgpms, viewColumns T = viewColumns v1 ++ [o0] ∧ ∀ r, (cgpmTab Z 2).present T r ↔
    (cgpmTab Z 2).present v1 r ∨ Valued (fun r a => (cgpmTab Z 3).cell (whole x) r a) [o0] r

theorem setExisting_full {Z : List Var} {x x' x'' : Crosscat} (h : CC Z x) {o0 o1 : Var}
    (h0 : o0 ∈ columns x) (h1 : o1 ∈ columns x) {g g' : Rng}
    (he : setExisting o0 o1 (x, g) = (.ok x', (x'', g'))) :
    Same Z [] (Rows Z x) x x' ∧ ∃ v1 ∈ x.cgpms, o1 ∈ viewColumns v1 ∧
      ((o0 ∈ viewColumns v1 ∧ Alike x x') ∨
        (Outcome x x' [o0] [viewColumns v1] ∧ Joined Z x x' o0 o1 v1)) := by
  unfold setExisting at he
  obtain ⟨⟨xa, ga⟩, s1, e1, he⟩ := run_bind he
  cases e1
  dsimp only at he
  obtain ⟨i0, s1, e1, he⟩ := run_bind he
  obtain ⟨hi0, rfl⟩ := lift_ok e1
  obtain ⟨i1, s1, e1, he⟩ := run_bind he
  obtain ⟨hi1, rfl⟩ := lift_ok e1
  obtain ⟨v0, hv0, ho0⟩ := viewIndex_view h hi0 (by simp) (by simpa using h0)
  obtain ⟨v1, hv1, ho1⟩ := viewIndex_view h hi1 (by simp) (by simpa using h1)
  have m1 : v1 ∈ x.cgpms := List.mem_of_getElem? hv1
  by_cases hii : i0 = i1
  · rw [if_pos hii] at he
    cases he
    subst hii
    rw [hv0] at hv1
    cases hv1
    exact ⟨h.same, v0, m1, ho1 o1 (by simp), .inl ⟨ho0 o0 (by simp), rfl⟩⟩
  · rw [if_neg hii] at he
    obtain ⟨w0, s1, e1, he⟩ := run_bind he
    obtain ⟨hw0, rfl⟩ := lift_ok e1
    have := item_ok hw0
    rw [hv0] at this
    cases this
    obtain ⟨v0', s1, e1, he⟩ := run_bind he
    obtain ⟨hv0', rfl⟩ := lift_ok e1
    obtain ⟨w1, s1, e1, he⟩ := run_bind he
    obtain ⟨hw1, rfl⟩ := lift_ok e1
    have := item_ok hw1
    rw [hv1] at this
    cases this
    obtain ⟨⟨bases, datasets⟩, s1, e1, he⟩ := run_bind he
    obtain ⟨hb, rfl⟩ := lift_ok e1
    obtain ⟨T, ⟨xb, gb⟩, e1, he⟩ := run_bind he
    have hfed := basesOf_ok h (by simpa using h0) hb
    unfold onView at e1
    dsimp only at e1
    rw [hv1] at e1
    dsimp only at e1
    rcases hpe : proposalExisting bases datasets (v1, g) with ⟨_ | T', v1', g1⟩
    · rw [hpe] at e1; cases e1
    rw [hpe] at e1
    cases e1
    obtain ⟨hprop, hkept⟩ := proposalExisting_ok hfed (h.viewReg m1) (h.views v1 m1) hpe
    obtain ⟨hs, hal⟩ := kept_same h (h.valued (by simpa using h0)) (kept_set h.all hv1 hkept)
    obtain ⟨⟨xc, gc⟩, s1, e1, he⟩ := run_bind he
    cases e1
    dsimp only at he
    obtain ⟨y1, s1, e1, he⟩ := run_bind he
    obtain ⟨hy1, rfl⟩ := lift_ok e1
    obtain ⟨y2, s1, e1, he⟩ := run_bind he
    obtain ⟨hy2, rfl⟩ := lift_ok e1
    obtain ⟨y3, s1, e1, he⟩ := run_bind he
    obtain ⟨hy3, rfl⟩ := lift_ok e1
    obtain ⟨hx', -⟩ := lift_ok he
    have hprop' : Proposal Z (fun r a => (cgpmTab Z 3).cell (whole ⟨x.cgpms.set i1 v1'⟩) r a) [o0] v1 T :=
      ⟨hprop.reg, hprop.view, hprop.out, hprop.cell, hprop.kept, fun r a ha => by
        rw [hprop.new r a ha]
        refine (hs.cell r a ?_).symm
        rw [List.mem_singleton] at ha
        rw [← hal.columns, ha]
        exact h0, fun r => by
        rw [hprop.rows]
        refine or_congr_right (valued_congr fun o ho => (hs.cell r o ?_).symm)
        rw [List.mem_singleton] at ho
        rw [← hal.columns, ho]
        exact h0⟩
    obtain ⟨q1, q2⟩ := move_existing h hs hal (outs := [o0]) (by simp) (i0 := i0) (i1 := i1) hii
      (v0 := v0) (by
        change (x.cgpms.set i1 v1')[i0]? = some v0
        rw [List.getElem?_set_ne (Ne.symm hii)]; exact hv0) hv1 rfl ho0 (foldlM_one hv0') hprop' hy1 hy2 hy3 hx'
    have m0 : v0 ∈ x.cgpms := List.mem_of_getElem? hv0
    have m0' : v0 ∈ x.cgpms.set i1 v1' := List.mem_iff_getElem?.2 ⟨i0, by
      rw [List.getElem?_set_ne (Ne.symm hii)]; exact hv0⟩
    have hny1 := nodup_of_drop hs.cc.nodup m0' (h.head_mem m0) hy1
    obtain ⟨p2, hny2⟩ := restore_ok hy2 hny1
    obtain ⟨p4, -⟩ := putView_ok hx'
    refine ⟨q1, v1, m1, ho1 o1 (by simp), .inr ⟨q2, fun v hv hva hvb => ?_, T, ?_, ?_, hprop.rows⟩⟩
    · have n0 : ((cgpmI 2).outputs v0).headD 0 ∉ (cgpmI 2).outputs v := fun hh => by
        rw [h.eq_view hv m0 hh (h.head_mem m0)] at hva
        exact hva (ho0 o0 (by simp))
      have n1 : ((cgpmI 2).outputs v1).headD 0 ∉ (cgpmI 2).outputs v := fun hh => by
        rw [h.eq_view hv m1 hh (h.head_mem m1)] at hvb
        exact hvb (ho1 o1 (by simp))
      have hne : v ≠ v1 := by
        rintro rfl
        exact hvb (ho1 o1 (by simp))
      have a1 := dropView_mem hs.cc.nodup (mem_set_of_ne hv hv1 hne) n0 hy1
      have a2 : v ∈ y2.cgpms := by rw [p2]; exact List.mem_append_left _ a1
      have a3 := dropView_mem hny2 a2 n1 hy3
      rw [p4]
      exact List.mem_append_left _ a3
    · rw [p4]; exact List.mem_append_right _ (List.mem_singleton.2 rfl)
    · obtain ⟨z1, -, hz1⟩ := h.head m1
      unfold viewColumns
      rw [hprop.out, hz1]
      rfl

theorem setExisting_ok {Z : List Var} {x x' x'' : Crosscat} (h : CC Z x) {o0 o1 : Var}
    (h0 : o0 ∈ columns x) (h1 : o1 ∈ columns x) {g g' : Rng}
    (he : setExisting o0 o1 (x, g) = (.ok x', (x'', g'))) :
    Same Z [] (Rows Z x) x x' ∧ ∃ v1 ∈ x.cgpms, o1 ∈ viewColumns v1 ∧
      ((o0 ∈ viewColumns v1 ∧ Alike x x') ∨ Outcome x x' [o0] [viewColumns v1]) := by
  obtain ⟨a1, v1, a2, a3, a4 | a4⟩ := setExisting_full h h0 h1 he
  · exact ⟨a1, v1, a2, a3, .inl a4⟩
  · exact ⟨a1, v1, a2, a3, .inr a4.1⟩

theorem setSingleton_full {Z : List Var} {x x' x'' : Crosscat} (h : CC Z x) {o0 : Var}
    (h0 : o0 ∈ columns x) {g g' : Rng}
    (he : setSingleton o0 (x, g) = (.ok x', (x'', g'))) :
    ∃ z, Same (z :: Z) [z] (Filled Z x [o0]) x x' ∧ NewView Z x x' [o0] z ∧ Outcome x x' [o0] [] ∧
      ∀ v ∈ x.cgpms, o0 ∉ viewColumns v → v ∈ x'.cgpms := by
  unfold setSingleton at he
  obtain ⟨⟨xa, ga⟩, s1, e1, he⟩ := run_bind he
  cases e1
  dsimp only at he
  obtain ⟨i0, s1, e1, he⟩ := run_bind he
  obtain ⟨hi0, rfl⟩ := lift_ok e1
  obtain ⟨v0, hv0, ho0⟩ := viewIndex_view h hi0 (by simp) (by simpa using h0)
  obtain ⟨w0, s1, e1, he⟩ := run_bind he
  obtain ⟨hw0, rfl⟩ := lift_ok e1
  have := item_ok hw0
  rw [hv0] at this
  cases this
  obtain ⟨v0', s1, e1, he⟩ := run_bind he
  obtain ⟨hv0', rfl⟩ := lift_ok e1
  obtain ⟨⟨bases, datasets⟩, s1, e1, he⟩ := run_bind he
  obtain ⟨hb, rfl⟩ := lift_ok e1
  obtain ⟨T, ⟨xb, gb⟩, e1, he⟩ := run_bind he
  have hfed := basesOf_ok h (by simpa using h0) hb
  obtain ⟨hps, rfl⟩ := onSnd_ok e1
  obtain ⟨z, hz, hsing⟩ := proposalSingleton_ok hfed (by simp) hps
  obtain ⟨y1, s1, e1, he⟩ := run_bind he
  obtain ⟨hy1, rfl⟩ := lift_ok e1
  obtain ⟨y2, s1, e1, he⟩ := run_bind he
  obtain ⟨hy2, rfl⟩ := lift_ok e1
  obtain ⟨hx', -⟩ := lift_ok he
  obtain ⟨q1, q2, q3⟩ := move_singleton h h.same rfl (by simp) (List.mem_of_getElem? hv0) ho0
    (foldlM_one hv0') hz hsing hy1 hy2 hx'
  have m0 := List.mem_of_getElem? hv0
  have hny1 := nodup_of_drop h.nodup m0 (h.head_mem m0) hy1
  obtain ⟨p2, hny2⟩ := restore_ok hy2 hny1
  obtain ⟨p4, -⟩ := putView_ok hx'
  refine ⟨z, q1, ⟨_, q2.1, hz, q2.2⟩, q3, fun v hv hva => ?_⟩
  have n0 : ((cgpmI 2).outputs v0).headD 0 ∉ (cgpmI 2).outputs v := fun hh => by
    rw [h.eq_view hv m0 hh (h.head_mem m0)] at hva
    exact hva (ho0 o0 (by simp))
  rw [p4, p2]
  exact List.mem_append_left _ (List.mem_append_left _ (dropView_mem h.nodup hv n0 hy1))

theorem setSingleton_ok {Z : List Var} {x x' x'' : Crosscat} (h : CC Z x) {o0 : Var}
    (h0 : o0 ∈ columns x) {g g' : Rng}
    (he : setSingleton o0 (x, g) = (.ok x', (x'', g'))) :
    ∃ z, Same (z :: Z) [z] (Filled Z x [o0]) x x' ∧ NewView Z x x' [o0] z ∧ Outcome x x' [o0] [] := by
  obtain ⟨z, a1, a2, a3, -⟩ := setSingleton_full h h0 he
  exact ⟨z, a1, a2, a3⟩

theorem singletons_ok {Z : List Var} {X : RowId → Var → Option Val} {outs : List Var}
    {bases : List Prim} {datasets : List (List (RowId × Dict Var Val))}
    (h : Fed Z X outs bases datasets.flatten) (hne : outs ≠ []) {aux : Nat} {ps : List View} {g g' : Rng}
    (ho : singletons bases datasets aux g = (.ok ps, g')) :
    ∀ p ∈ ps, ∃ z, (cgpmI 2).outputs p = z :: outs ∧ (z ∉ outs → Single Z X outs z p) := by
  induction aux generalizing ps g with
  | zero => cases ho; simp
  | succ aux ih =>
    obtain ⟨p, g1, h1, ho⟩ := run_bind ho
    obtain ⟨ps', g2, h2, ho⟩ := run_bind ho
    cases ho
    intro q hq
    rcases List.mem_cons.1 hq with rfl | hq
    · exact proposalSingleton_ok h hne h1
    · exact ih h2 q hq

/-- The state after the proposals, and the proposals. -/
theorem proposals_ok {Z : List Var} {x x1 : Crosscat} (h : CC Z x) {outs : List Var} (hne : outs ≠ [])
    (ho : ∀ o ∈ outs, o ∈ columns x) {aux : Nat} {ps : List View} {g g' : Rng}
    (he : proposals outs aux (x, g) = (.ok ps, (x1, g'))) :
    Same Z [] (Rows Z x) x x1 ∧ Alike x x1 ∧ ∃ cur, viewIndex x outs = .ok cur ∧
      (∀ j p, ps[j]? = some p → j < x.cgpms.length → j ≠ cur → ∃ v, x.cgpms[j]? = some v ∧
        Proposal Z (fun r a => (cgpmTab Z 3).cell (whole x1) r a) outs v p) ∧
      (∀ j p, ps[j]? = some p → x.cgpms.length ≤ j → ∃ z, (cgpmI 2).outputs p = z :: outs ∧
        (z ∉ outs → Single Z (fun r a => (cgpmTab Z 3).cell (whole x1) r a) outs z p)) := by
  unfold proposals at he
  obtain ⟨ex, ⟨xa, ga⟩, e1, he⟩ := run_bind he
  obtain ⟨si, ⟨xb, gb⟩, e2, he⟩ := run_bind he
  cases he
  -- the existing views
  unfold proposalsExisting at e1
  obtain ⟨⟨xc, gc⟩, s1, e3, e1⟩ := run_bind e1
  cases e3
  dsimp only at e1
  obtain ⟨cur, s1, e3, e1⟩ := run_bind e1
  obtain ⟨hcur, rfl⟩ := lift_ok e3
  obtain ⟨⟨bases, datasets⟩, s1, e3, e1⟩ := run_bind e1
  obtain ⟨hb, rfl⟩ := lift_ok e3
  have hfed := basesOf_ok h ho hb
  unfold onViews at e1
  dsimp only at e1
  rcases hpf : proposeFrom bases datasets cur 0 x.cgpms g with ⟨r, views', g1⟩
  rw [hpf] at e1
  cases e1
  obtain ⟨a1, a2, a3⟩ := proposeFrom_ok hfed h.all hpf
  obtain ⟨hs, hal⟩ := kept_same h (h.valued ho) a1
  -- the new views
  unfold proposalsSingleton at e2
  obtain ⟨⟨xc, gc⟩, s1, e3, e2⟩ := run_bind e2
  cases e3
  dsimp only at e2
  obtain ⟨⟨bases', datasets'⟩, s1, e3, e2⟩ := run_bind e2
  obtain ⟨hb', rfl⟩ := lift_ok e3
  have hfed' := basesOf_ok hs.cc (fun o h' => hal.columns ▸ ho o h') hb'
  obtain ⟨hsi, rfl⟩ := onSnd_ok e2
  have hsing := singletons_ok hfed' hne hsi
  refine ⟨hs, hal, cur, hcur, fun j p hj hlt hjc => ?_, fun j p hj hle => ?_⟩
  · rw [List.getElem?_append_left (by omega)] at hj
    obtain ⟨v, hv, hp⟩ := a3 j p hj (by omega)
    exact ⟨v, hv, hp.reg, hp.view, hp.out, hp.cell, hp.kept, fun r a ha => by
      rw [hp.new r a ha]
      exact (hs.cell r a (hal.columns ▸ ho a ha)).symm, fun r => by
      rw [hp.rows]
      exact or_congr_right (valued_congr fun o ho' => (hs.cell r o (hal.columns ▸ ho o ho')).symm)⟩
  · rw [List.getElem?_append_right (by omega)] at hj
    exact hsing p (List.mem_of_getElem? hj)

theorem settle_ok {x x' : Crosscat} {outs : List Var} {ps : List View} {cur sam : Nat}
    (h : settle x outs ps cur sam = .ok x') :
    ∃ v0 T, x.cgpms[cur]? = some v0 ∧ ps[sam]? = some T ∧ ((cur = sam ∧ x' = x) ∨ (cur ≠ sam ∧
      ∃ v0' y1 y2, outs.foldlM (removeCgpm 2) v0 = .ok v0' ∧ dropView x v0 = .ok y1 ∧
        restore y1 v0' = .ok y2 ∧ ((x.cgpms.length ≤ sam ∧ putView y2 T = .ok x') ∨
          (sam < x.cgpms.length ∧ ∃ u1 y3, x.cgpms[sam]? = some u1 ∧ dropView y2 u1 = .ok y3 ∧
            putView y3 T = .ok x')))) := by
  unfold settle at h
  rcases h0 : item x.cgpms cur with e | v0
  · rw [h0] at h; cases h
  rw [h0] at h
  rcases h1 : item ps sam with e | T
  · change (do let viewSampled ← item ps sam; _) = _ at h
    rw [h1] at h; cases h
  change (do let viewSampled ← item ps sam; _) = _ at h
  rw [h1] at h
  refine ⟨v0, T, item_ok h0, item_ok h1, ?_⟩
  by_cases hcs : cur = sam
  · change (if cur = sam then _ else _) = _ at h
    rw [if_pos hcs] at h
    cases h
    exact .inl ⟨hcs, rfl⟩
  · change (if cur = sam then _ else _) = _ at h
    rw [if_neg hcs] at h
    refine .inr ⟨hcs, ?_⟩
    rcases h2 : outs.foldlM (removeCgpm 2) v0 with e | v0'
    · rw [h2] at h; cases h
    rw [h2] at h
    rcases h3 : dropView x v0 with e | y1
    · change (do let x1 ← dropView x v0; _) = _ at h
      rw [h3] at h; cases h
    change (do let x1 ← dropView x v0; _) = _ at h
    rw [h3] at h
    rcases h4 : restore y1 v0' with e | y2
    · change (do let x2 ← restore y1 v0'; _) = _ at h
      rw [h4] at h; cases h
    change (do let x2 ← restore y1 v0'; _) = _ at h
    rw [h4] at h
    refine ⟨v0', y1, y2, rfl, rfl, h4, ?_⟩
    by_cases hl : x.cgpms.length ≤ sam
    · change (if x.cgpms.length ≤ sam then _ else _) = _ at h
      rw [if_pos hl] at h
      exact .inl ⟨hl, h⟩
    · change (if x.cgpms.length ≤ sam then _ else _) = _ at h
      rw [if_neg hl] at h
      refine .inr ⟨by omega, ?_⟩
      rcases h5 : item x.cgpms sam with e | u1
      · rw [h5] at h; cases h
      rw [h5] at h
      change (if ((cgpmI 2).outputs u1).headD 0 ≠ ((cgpmI 2).outputs T).headD 0 then _ else _) = _ at h
      split at h
      · cases h
      · rcases h6 : dropView y2 u1 with e | y3
        · rw [h6] at h; cases h
        rw [h6] at h
        exact ⟨u1, y3, item_ok h5, h6, h⟩

theorem transition_ok {Z : List Var} {x x' x'' : Crosscat} (h : CC Z x) {outs : List Var}
    (hne : outs ≠ []) (hnd : outs.Nodup) (ho : ∀ o ∈ outs, o ∈ columns x) {aux : Nat} {g g' : Rng}
    (he : transitionViewAssignments outs aux (x, g) = (.ok x', (x'', g'))) :
    (Same Z [] (Rows Z x) x x' ∧ (∃ v ∈ x.cgpms, (∀ o ∈ outs, o ∈ viewColumns v)) ∧ Alike x x') ∨
      (Same Z [] (Rows Z x) x x' ∧ ∃ v1 ∈ x.cgpms, Outcome x x' outs [viewColumns v1]) ∨
      ∃ z, Same (z :: Z) [z] (Filled Z x outs) x x' ∧ NewView Z x x' outs z ∧ Outcome x x' outs [] := by
  unfold transitionViewAssignments at he
  obtain ⟨ps, ⟨x1, g1⟩, e1, he⟩ := run_bind he
  obtain ⟨hs, hal, cur, hcur, hex, hsi⟩ := proposals_ok h hne ho e1
  obtain ⟨logps, s1, e2, he⟩ := run_bind he
  obtain ⟨-, rfl⟩ := lift_ok e2
  obtain ⟨⟨xa, ga⟩, s1, e2, he⟩ := run_bind he
  cases e2
  dsimp only at he
  obtain ⟨cur', s1, e2, he⟩ := run_bind he
  obtain ⟨hcur', rfl⟩ := lift_ok e2
  obtain ⟨sam, s1, -, he⟩ := run_bind he
  obtain ⟨hset, -⟩ := lift_ok he
  obtain ⟨v0, T, hv0, hT, hc⟩ := settle_ok hset
  have hlen : x1.cgpms.length = x.cgpms.length := by
    have := congrArg List.length hal
    simpa using this.symm
  obtain ⟨w0, hw0, how⟩ := viewIndex_view h hcur hne ho
  obtain ⟨w1, hw1, how1⟩ := viewIndex_view hs.cc hcur' hne (fun o h' => hal.columns ▸ ho o h')
  rw [hv0] at hw1
  cases hw1
  have hcc : cur' = cur := by
    obtain ⟨o, hoo⟩ := List.exists_mem_of_ne_nil _ hne
    have hw0' : ∃ u, x1.cgpms[cur]? = some u ∧ (cgpmI 2).outputs u = (cgpmI 2).outputs w0 := by
      have := congrArg (fun l => l[cur]?) hal
      simp only [List.getElem?_map, hw0, Option.map_some] at this
      rcases hw : x1.cgpms[cur]? with _ | u
      · rw [hw] at this; cases this
      · rw [hw] at this
        exact ⟨u, rfl, (Option.some.inj this).symm⟩
    obtain ⟨u, hu, huo⟩ := hw0'
    exact (viewIndex_ok hcur' hoo hu (by rw [huo]; exact columns_sub (how o hoo))).symm
  subst hcc
  rcases hc with ⟨-, rfl⟩ | ⟨hcs, v0', y1, y2, k1, k2, k3, ⟨hl, k4⟩ | ⟨hl, u1, y3, k4, k5, k6⟩⟩
  · exact .inl ⟨hs, ⟨w0, List.mem_of_getElem? hw0, how⟩, hal⟩
  · obtain ⟨z, hz, hsing⟩ := hsi sam T hT (by omega)
    obtain ⟨q1, q2, q3⟩ :=
      move_singleton h hs hal hnd (List.mem_of_getElem? hv0) how1 k1 hz hsing k2 k3 k4
    exact .inr (.inr ⟨z, q1, ⟨_, q2.1, hz, q2.2⟩, q3⟩)
  · obtain ⟨v1, hv1, hp⟩ := hex sam T hT (by omega) (Ne.symm hcs)
    have hu1 : (cgpmI 2).outputs u1 = (cgpmI 2).outputs v1 := by
      have := congrArg (fun l => l[sam]?) hal
      simp only [List.getElem?_map, hv1, k4, Option.map_some, Option.some.injEq] at this
      exact this.symm
    obtain ⟨q1, q2⟩ := move_existing h hs hal hnd hcs hv0 hv1 hu1 how1 k1 hp k2 k3 k5 k6
    exact .inr (.inl ⟨q1, v1, List.mem_of_getElem? hv1, q2⟩)

/-- The score of a column is always a number. -/
theorem dataLogp_fin {Z : List Var} {v : View} (h : (cgpmTab Z 2).Reg v) {o : Var}
    (ho : o ∈ (cgpmI 2).outputs v) : ∃ a : ℝ, dataLogp v o = .ok (.fin a) := by
  obtain ⟨refs, h1, h2⟩ := (cgpm_walk Z 2 v h).walk o ho
  have hg : ∀ p ∈ refs.objs, p.logpdfScore = .ok (.fin p.score) := by
    intro p hp
    rw [h2.objs] at hp
    have := (reg_prims 2 v h p (List.mem_of_mem_filter hp)).1
    exact Prim.logpdfScore_eq this.1 this.2
  have hm : refs.objs.mapM Prim.logpdfScore = .ok (refs.objs.map fun p => Fl.fin p.score) := by
    generalize refs.objs = l at hg
    induction l with
    | nil => rfl
    | cons p l ih =>
      rw [List.mapM_cons, hg p (by simp), ih fun q hq => hg q (by simp [hq])]
      rfl
  obtain ⟨a, ha⟩ := (Fl.sum_fin_iff (refs.objs.map fun p => Fl.fin p.score)).2 (by
    intro y hy
    obtain ⟨p, -, rfl⟩ := List.mem_map.1 hy
    exact ⟨_, rfl⟩)
  refine ⟨a, ?_⟩
  unfold dataLogp
  rw [h1]
  change (do let scores ← refs.objs.mapM Prim.logpdfScore; pure (Fl.sum scores)) = _
  rw [hm]
  change Except.ok _ = _
  rw [ha]

end Cgpm2.Views
