import Verif.Lemmas.RowStep
import Verif.Lemmas.Export
import Verif.Spec.Sweep

/-!
# The kernels of a GibbsCrossCat succeed (helpers)
-/

namespace Cgpm2.Views
open Spec Cpp

section
variable {Z : List Var} {x : Crosscat}

theorem smooth_of_ready (h : CC Z x) (hr : Ready x) : Smooth Z x := by
  refine ⟨h, fun v hv => ⟨fun o ho r y hy => ?_, fun hn => ?_⟩⟩
  · have hoc := mem_columns.2 ⟨v, hv, ho⟩
    obtain ⟨m, p, hf, b, hb, h1, h2, h3⟩ := takes_cell (h.viewReg hv) (h.views v hv) (h.plain o hoc) hy
    refine ⟨m, p, hf, b, hb, h1, h2, h3, ?_⟩
    rintro rfl
    have hne := fun hk => hr.missing o hoc b ⟨List.mem_flatMap.2 ⟨v, hv, flat_prims hf hb⟩, h1⟩ hk (fun _ => ⟨0, 0⟩) r
    rw [heldCell_eq (cgpmTLaws Z 3) h.reg, h.cell hv (columns_sub ho), hy] at hne
    exact ⟨fun hk => hne (.inl hk) rfl, fun hk => hne (.inr hk) rfl⟩
  · obtain ⟨z, -, hz, hp⟩ := present_iff (h.viewReg hv) (h.views v hv)
    refine (hp none).1 hn ?_
    have := hr.anonymous (fun _ => ⟨0, 0⟩) z
    rwa [heldCell_eq (cgpmTLaws Z 3) h.reg, h.cell hv (List.mem_of_mem_head? hz)] at this

/-! ## A missing value in a Bernoulli or Poisson column -/

/-- The row has a missing value in a Bernoulli or Poisson column of the view, and there is another row. -/
structure Ailing (Z : List Var) (v : View) (r : RowId) : Prop where
  reg : (cgpmTab Z 2).Reg v
  view : IsView v
  plain : ∀ o ∈ viewColumns v, o ∉ Z
  present : (cgpmTab Z 2).present v r
  other : ∃ r', (cgpmTab Z 2).present v r' ∧ r' ≠ r
  anon : ¬ (cgpmTab Z 2).present v none
  missing : ∃ o ∈ viewColumns v, (cgpmTab Z 2).cell v r o = some .nan ∧ ∃ m p, Flat v m p ∧
    ∃ b ∈ p.cgpms, Prim.outputs b = [o] ∧ (Prim.kind b = .bernoulli ∨ Prim.kind b = .poisson)

theorem Ailing.fails {v : View} {r : RowId} (h : Ailing Z v r) (g : Rng) :
    ∃ e v', transitionRows (cgpmI 1) r (v, g) = (.error e, (v', g)) ∧ (cgpmTab Z 2).Reg v' ∧
      (cgpmTab Z 2).Fresh v' r := by
  obtain ⟨o, ho, hx, hk⟩ := h.missing
  obtain ⟨r', h1, h2⟩ := h.other
  exact row_fails h.reg h.view h.plain h.present h1 h2 h.anon ho hx hk g

/-- The column has a base of the kind. -/
def HasKind (v : View) (o : Var) (P : Prim.Kind → Prop) : Prop :=
  ∃ m p, Flat v m p ∧ ∃ b ∈ p.cgpms, Prim.outputs b = [o] ∧ P (Prim.kind b)

theorem HasKind.shape {v v' : View} {o : Var} {P : Prim.Kind → Prop} (h : HasKind v o P)
    (hr : (cgpmTab Z 2).Reg v') (hs : (cgpmSem 2).shape v' = (cgpmSem 2).shape v) : HasKind v' o P := by
  obtain ⟨m, p, hf, b, hb, h1, h2⟩ := h
  obtain ⟨m', p', hf'⟩ := flat_of_reg hr (isView_of_shape hs hr hf.view)
  refine ⟨m', p', hf', ?_⟩
  rw [hf.eq, hf'.eq] at hs
  have hs : Shape.mix m'.rowDivide.shape ((cgpmSem 1).shape m'.array.base) =
    Shape.mix m.rowDivide.shape ((cgpmSem 1).shape m.array.base) := hs
  injection hs with _ hs
  rw [hf.base, hf'.base] at hs
  obtain ⟨b', hb', he⟩ := shape_prims hs.symm (q := b) (List.mem_flatMap.2 ⟨b, hb, List.mem_singleton.2 rfl⟩)
  unfold Prim.shape at he
  injection he with e1 e2 e3
  exact ⟨b', hb', e1.trans h1, e2 ▸ h2⟩

theorem Ailing.kin {v v' : View} {r : RowId} (h : Ailing Z v r) (hk : ViewKin Z v v') : Ailing Z v' r where
  reg := hk.reg
  view := isView_of_shape hk.shape hk.reg h.view
  plain := by rw [viewColumns_kin hk]; exact h.plain
  present := (hk.rows r).2 h.present
  other := by
    obtain ⟨r', h1, h2⟩ := h.other
    exact ⟨r', (hk.rows r').2 h1, h2⟩
  anon := fun hn => h.anon ((hk.rows none).1 hn)
  missing := by
    obtain ⟨o, ho, hx, hb⟩ := h.missing
    refine ⟨o, by rwa [viewColumns_kin hk], by rwa [hk.cell r o (h.plain o ho)], ?_⟩
    exact HasKind.shape (P := fun k => k = .bernoulli ∨ k = .poisson) hb hk.reg hk.shape

theorem forall₂_mem_left {α β : Type} {Q : α → β → Prop} {l : List α} {l' : List β}
    (h : List.Forall₂ Q l l') {a : α} (ha : a ∈ l) : ∃ b ∈ l', Q a b := by
  induction h with
  | nil => cases ha
  | cons h _ ih =>
    rcases List.mem_cons.1 ha with rfl | ha
    · exact ⟨_, by simp, h⟩
    · obtain ⟨b, h1, h2⟩ := ih ha
      exact ⟨b, by simp [h1], h2⟩

/-- A loop that returns has called every element in a state with the invariant. -/
theorem mapL_visits {T α β : Type} {P : T → Prop} {f : α → Py T β} {l : List α} {s s' : T} {bs : List β}
    (hf : ∀ a ∈ l, Pres P (f a)) (hs : P s) (h : Py.mapL f l s = (.ok bs, s')) {a : α} (ha : a ∈ l) :
    ∃ s1 b s2, P s1 ∧ f a s1 = (.ok b, s2) := by
  induction l generalizing s s' bs with
  | nil => cases ha
  | cons c l ih =>
    rw [Py.mapL] at h
    obtain ⟨b, s1, h1, h2⟩ := run_bind h
    rcases List.mem_cons.1 ha with rfl | ha
    · exact ⟨s, b, s1, hs, h1⟩
    · obtain ⟨bs', s2, h3, h4⟩ := run_bind h2
      exact ih (fun a ha => hf a (by simp [ha])) (hf c (by simp) _ _ _ hs h1) h3 ha

theorem Ailing.viewRows {v v' : View} {r : RowId} (h : Ailing Z v r) {g g' : Rng} :
    Gibbs.transitionViewRows [] (v, g) ≠ (.ok (), (v', g')) := by
  intro he
  obtain ⟨m, p, hf⟩ := flat_of_reg h.reg h.view
  have hd : Node.rowDivide v = some m.rowDivide := by rw [hf.eq]; rfl
  have hr : r ∈ Dict.keys m.rowDivide.data := by
    obtain ⟨-, -, -, hdata⟩ := reg_rowDivide (n := 1) h.reg hd
    by_contra hn
    rw [← Dict.get?_eq_none_iff, hdata r _ hf.out] at hn
    obtain ⟨z, -, hz, hp⟩ := present_iff h.reg h.view
    rw [hf.outputs] at hz
    cases hz
    exact (hp r).1 h.present hn
  have e1 : Gibbs.rowidsTransition [] (v, g) = (.ok (Dict.keys m.rowDivide.data), (v, g)) := by
    rw [hf.eq]
    rfl
  obtain ⟨l', g1, h1, h2⟩ := permutation_ok (Dict.keys m.rowDivide.data) g
  unfold Gibbs.transitionViewRows at he
  have e2 : Py.onSnd (permutation (Dict.keys m.rowDivide.data)) (v, g) = (.ok l', (v, g1)) := by
    unfold Py.onSnd
    rw [h1]
  have he := (bind_run (s := (v, g)) e1).symm.trans he
  have he := (bind_run (s := (v, g)) e2).symm.trans he
  obtain ⟨bs, s1, h3, h4⟩ := run_bind he
  obtain ⟨s2, b, s3, h5, h6⟩ := mapL_visits (P := fun s : Node (Cgpm 1) × Rng => Ailing Z s.1 r) (fun a _ s b s' hs he => by
    cases b
    exact hs.kin (transitionRows_kin hs.reg hs.view (v' := s'.1) (g' := s'.2) (g := s.2) he)) h h3 (h2.mem_iff.2 hr)
  obtain ⟨e, v2, h7, -⟩ := h5.fails s2.2
  rw [show s2 = (s2.1, s2.2) from rfl, h7] at h6
  cases h6

/-- The kernel that moves rows between clusters raises. -/
theorem Ailing.kernel {v : View} {r : RowId} {s : Gibbs} (h : CC Z s.crosscat) (hv : v ∈ s.crosscat.cgpms)
    (ha : Ailing Z v r) (ord : Orders) (g : Rng) {s' : Gibbs × Rng} :
    Gibbs.transitionRowAssignments ord none none (s, g) ≠ (.ok (), s') := by
  intro he
  obtain ⟨i, hi⟩ := List.mem_iff_getElem?.1 hv
  obtain ⟨l, h1, -⟩ := indexes_total h ord (outputs := none) (by simp)
  have hil : i ∈ l := by
    obtain ⟨o, ho, -⟩ := ha.missing
    unfold rowMixtureIndexes at h1
    rcases hm : (orAll s.crosscat none).mapM fun output => viewIndex s.crosscat [output] with e | idx
    · rw [hm] at h1; cases h1
    rw [hm] at h1
    cases h1
    rw [ord.views_mem]
    have ho' := mem_columns.2 ⟨v, hv, ho⟩
    obtain ⟨k, hk, u, hu, hou⟩ := viewIndex_eq h ho'
    have : i = k := index_unique h.nodup hi hu (columns_sub ho) (columns_sub hou)
    subst this
    have hF := mapM_ok_forall hm
    obtain ⟨b, hb2, hb1⟩ := forall₂_mem_left hF (show o ∈ orAll s.crosscat none from ho')
    rw [hk] at hb1
    cases hb1
    exact hb2
  unfold Gibbs.transitionRowAssignments at he
  rw [Py.get_bind] at he
  dsimp only at he
  rw [Py.lift_bind, h1] at he
  have he : Gibbs.forEach l (fun i => Gibbs.onCrosscat (onView i (Gibbs.transitionViewRows []))) (s, g) =
    (.ok (), s') := he
  obtain ⟨bs, s1, h3, h4⟩ := run_bind he
  let P : Gibbs × Rng → Prop := fun s => CC Z s.1.crosscat ∧ ∃ v, s.1.crosscat.cgpms[i]? = some v ∧ Ailing Z v r
  have hP : ∀ j, Pres P (Gibbs.onCrosscat (onView j (Gibbs.transitionViewRows []))) := by
    rintro j ⟨t, g⟩ b t' ⟨hc, w, hw, haw⟩ he
    unfold Gibbs.onCrosscat onView at he
    dsimp only at he
    rcases hj : t.crosscat.cgpms[j]? with _ | u
    · rw [hj] at he; cases he
    rw [hj] at he
    dsimp only at he
    rcases hm : Gibbs.transitionViewRows [] (u, g) with ⟨e, u', g'⟩
    rw [hm] at he
    cases he
    have hu := List.mem_of_getElem? hj
    have hk := viewRows_kin (hc.viewReg hu) (hc.views u hu) hm
    refine ⟨(kin_replace hc (kin_set (fun v hv => hc.viewReg hv) hj hk)).1, ?_⟩
    by_cases hij : j = i
    · subst hij
      rw [hj] at hw
      cases hw
      exact ⟨u', by simp [(List.getElem?_eq_some_iff.1 hj).1], haw.kin hk⟩
    · exact ⟨w, by simp [hij, hw], haw⟩
  obtain ⟨⟨t, g2⟩, b, s3, ⟨hc, w, hw, haw⟩, h6⟩ := mapL_visits (P := P) (fun j _ => hP j) ⟨h, v, hi, ha⟩ h3 hil
  unfold Gibbs.onCrosscat onView at h6
  dsimp only at h6 hw
  rw [hw] at h6
  dsimp only at h6
  rcases hm : Gibbs.transitionViewRows [] (w, g2) with ⟨e, w', g'⟩
  rw [hm] at h6
  cases h6
  exact haw.viewRows hm

end
end Cgpm2.Views
